import Verif.Model.Maths
import Verif.Model.Parser
/-!
# Evaluation  (src/parser.rs 390-586, src/maths/calculus.rs, src/roots.rs, src/solver.rs, src/lib.rs)

`eval_rec`, the calculus functions and the root finder call each other. The calculus functions and
the root finder only use `eval` (that is `eval_rec` with `last_fn = ""`), so they take it as a
parameter `ev` here; `evalRec` ties the knot with a step budget: `timeout` means that the real
evaluation has not finished within that many nested calls (or loop iterations of an integral).
The `println!` of the partial sums in `calculate_integral` (src/maths/calculus.rs 42) is in `Model/Trace.lean`.
-/

namespace MUL

section
variable {F : Type} [FNum F]

open FArith FElem

/-- The type of `eval(expr, context)` returning the vector of values. -/
abbrev Evaluator (F : Type) := AST F → Context F → Out EvalError (List (Value F))

/-- `EvalError::from(String)` as applied by `?` to a maths function (src/errors.rs 144-148). -/
def liftMath {α : Type} (x : Out String α) : Out EvalError α := x.mapErr .mathError

/-! ## src/maths/calculus.rs -/

/-- Removal of the first variable with the given name  (src/maths/calculus.rs 9-15). -/
def eraseFirstVar (vars : List (Variable F)) (n : Str) : List (Variable F) :=
  vars.eraseP fun v => v.name == n

/-- The inner loop of `calculate_integral`  (src/maths/calculus.rs 32-38): add the `i`-th new value
to the `i`-th sum, start a new sum where there is none yet. -/
def accumulate : List (Value F) → List (Value F) → Out EvalError (List (Value F))
  | sums, [] => .ok sums
  | [], e :: es => do
    let rest ← accumulate [] es
    .ok (e :: rest)
  | s :: ss, e :: es => do
    let s' ← liftMath (vAdd s e)
    let rest ← accumulate ss es
    .ok (s' :: rest)

/-- `while b < ub { .. b += dx }`  (src/maths/calculus.rs 28-41). The first argument bounds the number
of iterations. The integrand is evaluated at `(b+(b-dx))/2`. -/
def integralLoop (ev : Evaluator F) (expr : AST F) (x : Str) (vars : List (Variable F))
    (funs : List (Function F)) (ub dx : F) :
    Nat → F → List (Value F) → Out EvalError (List (Value F))
  | 0, b, sums => if lt b ub then .timeout else .ok sums
  | n + 1, b, sums =>
    if lt b ub then do
      let evals ← ev expr ⟨vars ++ [⟨x, [.scalar (div (add b (sub b dx)) (ofInt 2))]⟩], funs⟩
      let sums ← accumulate sums evals
      integralLoop ev expr x vars funs ub dx n (add b dx) sums
    else .ok sums

/-- `calculate_integral`  (src/maths/calculus.rs 8-51). -/
def calculateIntegral (cfg : Cfg) (ev : Evaluator F) (fuel : Nat) (expr : AST F) (x : Str)
    (lower upper : Value F) (ctx : Context F) : Out EvalError (List (Value F)) :=
  let vars := eraseFirstVar ctx.vars x
  match lower, upper with
  | .scalar lb0, .scalar ub0 =>
    if beq lb0 ub0 then .ok [.scalar (ofInt 0)]
    else
      let ub := if lt ub0 lb0 then lb0 else ub0
      let lb := if lt ub0 lb0 then ub0 else lb0
      let dx := div (sub ub lb) (powi (ofInt 10) ((cfg.prec : Int) - 3))
      do
        let sums ← integralLoop ev expr x vars ctx.funs ub dx fuel lb []
        sums.mapM fun s => liftMath (vMult s (.scalar dx))
  | _, _ => .err (.mathError "Only scalar bounds are allowed!")

/-- The tree of `(fxh - fx) / 10^-PREC`  (src/maths/calculus.rs 78-86, 114-122). -/
def differenceQuotient (cfg : Cfg) (fxh fx : Value F) : AST F :=
  .simple .div (.simple .sub (AST.fromValue fxh) (AST.fromValue fx))
    (AST.fromValue (.scalar (powi (ofInt 10) (-(cfg.prec : Int)))))

/-- Removal of the variable if it exists  (src/maths/calculus.rs 60-65, 99-104). -/
def dropVar (ctx : Context F) (x : Str) : Context F :=
  if ctx.vars.any fun v => v.name == x then ctx.removeVar x else ctx

/-- `calculate_derivative`  (src/maths/calculus.rs 59-96). The caller passes a copy of the context
that is not used afterwards, so the mutated context is not returned. -/
def calculateDerivative (cfg : Cfg) (ev : Evaluator F) (expr : AST F) (x : Str) (at_ : Value F)
    (ctx : Context F) : Out EvalError (List (Value F)) :=
  let ctx := dropVar ctx x
  match at_ with
  | .scalar s => do
    let ctx := ctx.addVar ⟨x, [at_]⟩
    let fxs ← ev expr ctx
    let ctx := ctx.removeVar x
    let ctx := ctx.addVar ⟨x, [.scalar (add s (powi (ofInt 10) (-(cfg.prec : Int))))]⟩
    let fxhs ← ev expr ctx
    if fxs.length ≠ fxhs.length then
      .err (.mathError "Amount of solutions for f(x) and f(x+h) are different!")
    else do
      let res ← (List.range fxs.length).mapM fun i => do
        let fxh ← idx fxhs i
        let fx ← idx fxs i
        ev (differenceQuotient cfg fxh fx) ctx
      .ok res.flatten
  | _ => .err (.mathError "Only scalar values are allowed!")

/-- `calculate_derivative_newton`  (src/maths/calculus.rs 98-129), always called with
`fx = Some(..)` and a context that is dropped afterwards (src/roots.rs 114); the branch
`fx.is_none()` is kept. -/
def calculateDerivativeNewton (cfg : Cfg) (ev : Evaluator F) (expr : AST F) (x : Str)
    (at_ : Value F) (fx : Option (Value F)) (ctx : Context F) : Out EvalError (Value F) :=
  let ctx := dropVar ctx x
  match at_ with
  | .scalar s => do
    let (fx, ctx) ← (match fx with
      | some fx => (.ok (fx, ctx) : Out EvalError (Value F × Context F))
      | none => do
        let ctx := ctx.addVar ⟨x, [at_]⟩
        let r ← ev expr ctx
        let fx ← Out.unwrap r[0]?
        .ok (fx, ctx.removeVar x))
    let ctx := ctx.addVar ⟨x, [.scalar (add s (powi (ofInt 10) (-(cfg.prec : Int))))]⟩
    let r ← ev expr ctx
    let fxh ← Out.unwrap r[0]?
    let r ← ev (differenceQuotient cfg fxh fx) ctx
    Out.unwrap r[0]?
  | _ => .err (.mathError "Only scalar values are allowed!")

/-! ## src/roots.rs -/

/-- Comparison key of `sort_by`: the scalar, or the first entry of the vector
(`get_scalar().unwrap()`, `get_vector().unwrap()[0]`; src/roots.rs 23-32). -/
def sortKey {ε : Type} : Value F → Out ε F
  | .scalar s => .ok s
  | .vector v => idx v 0
  | .matrix _ => .panic

/-- Stable sort by a key with `partial_cmp(..).unwrap()`: panics if a key is NaN. (`slice::sort_by`
is stable; its result for a total preorder is unique, so Lean's stable `mergeSort` gives the same.) -/
def sortByKey {ε : Type} (key : F → F) (l : List (Value F)) : Out ε (List (Value F)) := do
  let keyed ← l.mapM fun v => do
    let k ← sortKey v
    .ok (key k, v)
  if keyed.any fun kv => isNaN kv.1 then .panic
  else .ok ((keyed.mergeSort fun a b => !lt b.1 a.1).map Prod.snd)

/-- The deduplication loop of `clean_results`  (src/roots.rs 7-19): keep a result unless an earlier
kept one rounds to the same value. -/
def dedupResults (cfg : Cfg) : List (Value F) → List (Value F) → List (Value F)
  | [], acc => acc
  | i :: rest, acc =>
    if acc.any fun j => Value.beq (i.round (cfg.prec - 2)) (j.round (cfg.prec - 2))
    then dedupResults cfg rest acc
    else dedupResults cfg rest (acc ++ [i])

/-- `clean_results`  (src/roots.rs 3-38). -/
def cleanResults {ε : Type} (cfg : Cfg) (res : List (Value F)) : Out ε (List (Value F)) :=
  match res with
  | [] => .ok []
  | r0 :: _ =>
    let newRes := dedupResults cfg res []
    match r0 with
    | .matrix _ => .ok newRes
    | _ =>
      if newRes.length > 10 then do
        let s ← sortByKey abs newRes
        let s := s.take 10
        sortByKey id s
      else .ok newRes

/-- `gauss_algorithm`  (src/roots.rs 40-97). The caller drops the mutated matrix. -/
def gaussAlgorithm (v : List (List F)) : Out EvalError (Value F) := do
  let v0 ← idx v 0
  if v.length + 1 ≠ v0.length then .err .underdeterminedSystem
  else do
    let v ← eliminate .infiniteSolutions v
    let v := v.reverse.map List.reverse
    let v := v.map (rotate 1)
    let v ← eliminate .infiniteSolutions v
    let res ← (List.range v.length).mapM fun i => do
      let vi ← idx v i
      let b ← idx vi (vi.length - 1)
      let p ← idx vi i
      .ok (div b p)
    .ok (.vector res.reverse)

/-- `x.values.get(0).unwrap().get_scalar().unwrap()` -/
def firstScalar {ε : Type} (vs : List (Value F)) : Out ε F := do
  let v ← Out.unwrap vs[0]?
  Out.unwrap v.getScalar

/-- `jacobi_and_gauss`  (src/roots.rs 99-136). -/
def jacobiAndGauss (cfg : Cfg) (ev : Evaluator F) (searchExpres : List (AST F))
    (x : List (Variable F)) (ctx : Context F) (fx : List F) : Out EvalError (List (Variable F)) := do
  let jacobi ← (List.range searchExpres.length).mapM fun i => do
    (List.range x.length).mapM fun j => do
      let others := ((List.range x.length).filter fun k => j != k).filterMap fun k => x[k]?
      let e ← idx searchExpres i
      let xj ← idx x j
      let at_ ← Out.unwrap xj.values[0]?
      let fxi ← idx fx i
      let d ← calculateDerivativeNewton cfg ev e xj.name at_ (some (.scalar fxi))
        ⟨ctx.vars ++ others, ctx.funs⟩
      Out.unwrap d.getScalar
  let jacobi ← (List.range jacobi.length).mapM fun i => do
    let row ← idx jacobi i
    let fxi ← idx fx i
    .ok (row ++ [mul (ofInt (-1)) fxi])
  let d ← gaussAlgorithm jacobi
  (List.range x.length).mapM fun i => do
    let xi ← idx x i
    let dv ← Out.unwrap d.getVector
    let di ← idx dv i
    let old ← firstScalar xi.values
    .ok ⟨xi.name, [.scalar (add di old)]⟩

/-- `enum NewtonReturn`  (src/roots.rs 138-141). -/
inductive NewtonReturn (F : Type) where
  | nextX (x : List (Variable F))
  | finishedX (x : List (Variable F))

/-- `for i in x { context.add_var(i) }`. -/
def addVars (ctx : Context F) (x : List (Variable F)) : Context F := x.foldl Context.addVar ctx

/-- `for i in x { context.remove_var(&i.name) }`. -/
def removeVars (ctx : Context F) (x : List (Variable F)) : Context F :=
  x.foldl (fun c v => c.removeVar v.name) ctx

/-- `fx.iter().map(|f| f.powi(2)).sum::<f64>().sqrt()`  (src/roots.rs 155, 169). -/
def norm (fx : List F) : F := sqrt (fx.foldl (fun s f => add s (powi f 2)) (ofInt 0))

/-- `-10^-PREC < norm && norm < 10^-PREC`  (src/roots.rs 155, 169). -/
def normSmall (cfg : Cfg) (fx : List F) : Bool :=
  let eps := powi (ofInt 10) (-(cfg.prec : Int)) (F := F)
  lt (neg eps) (norm fx) && lt (norm fx) eps

/-- Evaluation of a list of expressions to their first scalar value  (src/roots.rs 148-150, 160-162). -/
def evalScalars (ev : Evaluator F) (es : List (AST F)) (ctx : Context F) : Out EvalError (List F) :=
  es.mapM fun i => do
    let r ← ev i ctx
    firstScalar r

/-- `newton`  (src/roots.rs 143-185). Returns the outcome and the value of the `&mut Context` after
the call. -/
def newton (cfg : Cfg) (ev : Evaluator F) (searchExpres checkExpres : List (AST F))
    (x : List (Variable F)) (ctx : Context F) : Out EvalError (NewtonReturn F) × Context F :=
  let ctx1 := addVars ctx x
  match evalScalars ev searchExpres ctx1 with
  | .err e => (.err e, ctx1)
  | .panic => (.panic, ctx1)
  | .timeout => (.timeout, ctx1)
  | .ok fx =>
    let ctx2 := removeVars ctx1 x
    if normSmall cfg fx then
      let ctx3 := addVars ctx2 x
      match evalScalars ev checkExpres ctx3 with
      | .err e => (.err e, ctx3)
      | .panic => (.panic, ctx3)
      | .timeout => (.timeout, ctx3)
      | .ok checkResults =>
        let ctx4 := removeVars ctx3 x
        if checkResults.isEmpty then (.ok (.finishedX x), ctx4)
        else if normSmall cfg checkResults then (.ok (.finishedX x), ctx4)
        else (.err .expressionCheckFailed, ctx4)
    else
      match jacobiAndGauss cfg ev searchExpres x ctx2 fx with
      | .err e => (.err e, ctx2)
      | .panic => (.panic, ctx2)
      | .timeout => (.timeout, ctx2)
      | .ok newX =>
        -- `for i in &new_x { if i.values.get(0).unwrap().is_inf_or_nan() {..} }`
        match newX.mapM (fun i => (Out.unwrap i.values[0]? : Out EvalError (Value F))) with
        | .ok vs => if vs.any Value.isInfOrNan then (.err .naNOrInf, ctx2) else (.ok (.nextX newX), ctx2)
        | .err e => (.err e, ctx2)
        | .panic => (.panic, ctx2)
        | .timeout => (.timeout, ctx2)

/-- `generate_combinations`  (src/roots.rs 187-198). -/
def generateCombinations : List Nat → Nat → List Nat → List (List Nat)
  | [], len, prev => if prev.length = len then [prev] else []
  | v :: rest, len, prev =>
    if prev.length = len then [prev]
    else generateCombinations rest len (prev ++ [v]) ++
      -- the remaining iterations of the loop over `arr`
      combsFrom rest len prev
where
  /-- the loop `for (i, val) in arr.iter().enumerate()` started at a later element -/
  combsFrom : List Nat → Nat → List Nat → List (List Nat)
    | [], _, _ => []
    | v :: rest, len, prev => generateCombinations rest len (prev ++ [v]) ++ combsFrom rest len prev

/-- `struct RootFinder`  (src/roots.rs 202-207). -/
structure RootFinder (F : Type) where
  expressions : List (AST F)
  combinations : List (List Nat)
  context : Context F
  searchVarsNames : List Str

/-- `AST::Operation(_)`? -/
def AST.isOperation : AST F → Bool
  | .simple .. => true
  | .integral .. => true
  | .derivative .. => true
  | .equation .. => true
  | _ => false

/-- `RootFinder::new`  (src/roots.rs 217-269). -/
def RootFinder.new (ev : Evaluator F) (expressions : List (AST F)) (context : Context F)
    (searchVarsNames : List Str) : Out EvalError (RootFinder F) :=
  if expressions.length = 0 then .err .nothingToDoEq
  else if expressions.any fun e => !e.isOperation then .err .nothingToDoEq
  else if searchVarsNames.any fun i => (context.vars.map (·.name)).contains i then
    .err .searchVarsInVars
  else if searchVarsNames.length > expressions.length then .err .underdeterminedSystem
  else do
    let ctx1 := searchVarsNames.foldl (fun c i => c.addVar ⟨i, [.scalar (ofDec 821785 (-5))]⟩) context
    let e0 ← idx expressions 0
    let initialRes ← ev e0 ctx1
    let ctx2 := searchVarsNames.foldl (fun c i => c.removeVar i) ctx1
    let v ← Out.unwrap initialRes[0]?
    match v with
    | .vector _ => .err .vectorInEq
    | .matrix _ => .err .matrixInEq
    | .scalar _ =>
      let combs :=
        if searchVarsNames.length < expressions.length then
          generateCombinations (List.range expressions.length) searchVarsNames.length []
        else [List.range expressions.length]
      .ok ⟨expressions, combs, ctx2, searchVarsNames⟩

/-- Splitting the expressions into those searched and those checked  (src/roots.rs 277-283):
`check_expres.remove(*j - removed)` with `removed` counting up. State: `removed`, searched, rest. -/
def splitExprs {ε α : Type} : List Nat → Nat → List α → List α → Out ε (List α × List α)
  | [], _, search, check => .ok (search, check)
  | j :: js, removed, search, check =>
    if j < removed then .panic
    else do
      let e ← idx check (j - removed)
      splitExprs js (removed + 1) (search ++ [e]) (check.eraseIdx (j - removed))

/-- The value built from a finished `x`  (src/roots.rs 300-308). -/
def resultValue {ε : Type} (finX : List (Variable F)) : Out ε (Value F) := do
  let rv ← finX.mapM fun i => firstScalar i.values
  match rv with
  | [s] => .ok (.scalar s)
  | _ => .ok (.vector rv)

/-- Result of the inner solve loop. -/
structure Loop1 (F : Type) where
  /-- the root found, if any -/
  found : Option (Value F)
  /-- `break 'solve_loop_0` -/
  stop : Bool
  /-- the local context after the loop -/
  ctx : Context F

/-- `'solve_loop_1: for _ in 0..1000`  (src/roots.rs 292-322), the first argument counts iterations. -/
def solveLoop1 (cfg : Cfg) (ev : Evaluator F) (search check : List (AST F)) :
    Nat → List (Variable F) → Context F → Out EvalError (Loop1 F)
  | 0, _, ctx => .ok ⟨none, false, ctx⟩
  | n + 1, x, ctx =>
    match newton cfg ev search check x ctx with
    | (.ok (.nextX x'), ctx') => solveLoop1 cfg ev search check n x' ctx'
    | (.ok (.finishedX finX), ctx') => do
      let v ← resultValue finX
      .ok ⟨some v, false, ctx'⟩
    | (.err .infiniteSolutions, ctx') => .ok ⟨none, true, ctx'⟩
    | (.err .naNOrInf, ctx') => .ok ⟨none, false, ctx'⟩
    | (.err .expressionCheckFailed, ctx') => .ok ⟨none, false, ctx'⟩
    | (.err e, _) => .err e
    | (.panic, _) => .panic
    | (.timeout, _) => .timeout

/-- `'solve_loop_0: for j in -1000..1000`  (src/roots.rs 286-323) over the remaining start values. -/
def solveLoop0 (cfg : Cfg) (ev : Evaluator F) (search check : List (AST F)) (names : List Str) :
    List Int → Context F → List (Value F) → Out EvalError (List (Value F))
  | [], _, results => .ok results
  | j :: js, ctx, results => do
    let x := names.map fun k => (⟨k, [.scalar (ofInt j)]⟩ : Variable F)
    let r ← solveLoop1 cfg ev search check 1000 x ctx
    let results := match r.found with
      | some v => results ++ [v]
      | none => results
    if r.stop then .ok results
    else solveLoop0 cfg ev search check names js r.ctx results

/-- The start values `-1000..1000`  (src/roots.rs 286). -/
def startValues : List Int := (List.range 2000).map fun (n : Nat) => (n : Int) - 1000

/-- The loop over the combinations of `find_roots`  (src/roots.rs 276-330). -/
def findRootsLoop (cfg : Cfg) (ev : Evaluator F) (rf : RootFinder F) :
    List (List Nat) → Out EvalError (List (Value F))
  | [] => .ok []
  | i :: rest => do
    let (search, check) ← splitExprs i 0 [] rf.expressions
    let results ← solveLoop0 cfg ev search check rf.searchVarsNames startValues rf.context []
    let cleaned ← cleanResults cfg results
    if !cleaned.isEmpty then .ok cleaned
    else findRootsLoop cfg ev rf rest

/-- `RootFinder::find_roots`  (src/roots.rs 275-333). -/
def RootFinder.findRoots (cfg : Cfg) (ev : Evaluator F) (rf : RootFinder F) :
    Out EvalError (List (Value F)) :=
  findRootsLoop cfg ev rf rf.combinations

/-- The evaluation of an equation  (src/parser.rs 565-580). -/
def solveEquations (cfg : Cfg) (ev : Evaluator F) (equations : List (AST F × AST F))
    (ctx : Context F) (searchVars : List Str) : Out EvalError (List (Value F)) := do
  let finalExpressions := equations.map fun i => AST.simple .sub i.1 i.2
  let rf ← RootFinder.new ev finalExpressions ctx searchVars
  rf.findRoots cfg ev

/-! ## src/parser.rs: eval -/

/-- The `match op_type` of `eval_rec`  (src/parser.rs 508-532): the values pushed for one pair. -/
def applyOp (op : SimpleOp) (i j : Value F) : Out EvalError (List (Value F)) :=
  let one (x : Out String (Value F)) : Out EvalError (List (Value F)) := do
    let v ← liftMath x
    .ok [v]
  match op with
  | .get => one (vGet i j)
  | .add => one (vAdd i j)
  | .sub => one (vSub i j)
  | .addSub => do
    let a ← liftMath (vAdd i j)
    let b ← liftMath (vSub i j)
    .ok [a, b]
  | .mult => one (vMult i j)
  | .neg => one (vNeg j)
  | .div => one (vDiv i j)
  | .cross => one (vCross i j)
  | .hiddenMult => one (vMult i j)
  | .pow => one (vPow i j)
  | .sin => one (vSin i)
  | .cos => one (vCos i)
  | .tan => one (vTan i)
  | .abs => one (vAbs i)
  | .sqrt => one (vSqrt i)
  | .root => one (vRoot i j)
  | .ln => one (vLn i)
  | .arcsin => one (vArcsin i)
  | .arccos => one (vArccos i)
  | .arctan => one (vArctan i)
  | .det => one (vDet i)
  | .inv => one (vInv i)
  | .parenths => .ok [i]

/-- The two nested loops over the values of both operands  (src/parser.rs 506-534). -/
def applyAll (op : SimpleOp) (lv rv : List (Value F)) : Out EvalError (List (Value F)) := do
  let res ← lv.mapM fun i => do
    let r ← rv.mapM fun j => applyOp op i j
    .ok r.flatten
  .ok res.flatten

/-- `get_scalar` of all values, failing if one is not a scalar  (src/parser.rs 404-409, 422-427). -/
def allScalars (e : EvalError) (vs : List (Value F)) : Out EvalError (List F) :=
  vs.mapM fun v => match v.getScalar with
    | some s => .ok s
    | none => .err e

/-- The variables a function body sees  (src/parser.rs 483-492): the parameters first, then the
context variables whose name does not occur yet. -/
def callVars (inputs : List Str) (p : List (Value F)) (vars : List (Variable F)) : List (Variable F) :=
  let fVars := (inputs.zip p).map fun np => (⟨np.1, [np.2]⟩ : Variable F)
  vars.foldl (fun acc i => if (acc.map (·.name)).contains i.name then acc else acc ++ [i]) fVars

/-- `eval_rec`  (src/parser.rs 397-586). The first argument is the step budget. -/
def evalRec (cfg : Cfg) : Nat → AST F → Context F → Str → Out EvalError (List (Value F))
  | 0, _, _, _ => .timeout
  | n + 1, b, ctx, lastFn =>
    match b with
    | .scalar s => .ok [.scalar s]
    | .vector v => do
      let fields ← v.mapM fun i => do
        let values ← evalRec cfg n i ctx lastFn
        allScalars .nonScalarInVector values
      .ok ((cartProd fields).map .vector)
    | .matrix m => do
      let rows ← m.mapM fun i => i.mapM fun j => do
        let values ← evalRec cfg n j ctx lastFn
        allScalars .nonScalarInMatrix values
      .ok ((cartProd (rows.map cartProd)).map .matrix)
    | .list l => do
      let vs ← l.mapM fun e => evalRec cfg n e ctx lastFn
      .ok vs.flatten
    | .variable v =>
      match ctx.findVar v with
      | some vs => .ok vs
      | none => .err (.noVariable v)
    | .function name inputs =>
      if lastFn = name then .err .recursiveFunction
      else match ctx.findFun name with
        | none => .err (.noFunction name)
        | some f =>
          if inputs.length ≠ f.inputs.length then
            .err (.wrongNumberOfArgs f.inputs.length inputs.length)
          else do
            let evalInputs ← inputs.mapM fun i => evalRec cfg n i ctx lastFn
            let res ← (cartProd evalInputs).mapM fun p =>
              evalRec cfg n f.ast ⟨callVars f.inputs p ctx.vars, ctx.funs⟩ name
            .ok res.flatten
    | .simple op left right => do
      let lv ← evalRec cfg n left ctx lastFn
      let rv ← evalRec cfg n right ctx lastFn
      applyAll op lv rv
    | .integral expr x lower upper => do
      let lb ← evalRec cfg n lower ctx lastFn
      let ub ← evalRec cfg n upper ctx lastFn
      let res ← lb.mapM fun i => do
        let r ← ub.mapM fun j =>
          calculateIntegral cfg (fun a c => evalRec cfg n a c []) n expr x i j ctx
        .ok r.flatten
      .ok res.flatten
    | .derivative expr x at_ => do
      let eat ← evalRec cfg n at_ ctx lastFn
      let res ← eat.mapM fun i =>
        calculateDerivative cfg (fun a c => evalRec cfg n a c []) expr x i ctx
      .ok res.flatten
    | .equation equations searchVars =>
      solveEquations cfg (fun a c => evalRec cfg n a c []) equations ctx searchVars

/-- `eval`  (src/parser.rs 393-395) with a step budget. -/
def eval (cfg : Cfg) (n : Nat) (b : AST F) (ctx : Context F) : Out EvalError (List (Value F)) :=
  evalRec cfg n b ctx []

/-- `solve`  (src/solver.rs 8-22) with a step budget. -/
def solve (cfg : Cfg) (n : Nat) (equations : List (AST F × AST F)) (ctx : Context F)
    (searchVars : List Str) : Out EvalError (List (Value F)) :=
  let finalExpressions := equations.foldl (fun fe i => fe ++ [AST.simple .sub i.1 i.2]) []
  match RootFinder.new (eval cfg n) finalExpressions ctx searchVars with
  | .ok rootFinder => rootFinder.findRoots cfg (eval cfg n)
  | .err e => .err e
  | .panic => .panic
  | .timeout => .timeout

/-- `quick_eval`  (src/lib.rs 169-173) with a step budget for the evaluation. -/
def quickEval [UTable] (cfg : Cfg) (n : Nat) (expr : Str) (ctx : Context F) :
    Out QuickEvalError (List (Value F)) := do
  let b ← (parse cfg expr).mapErr .parserError
  (eval cfg n b ctx).mapErr .evalError

end

end MUL
