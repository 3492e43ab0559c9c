import Verif.Model.Eval
/-!
# What an evaluation prints  (src/maths/calculus.rs 42)

`calculate_integral` writes the sums it has accumulated to the standard output (`println!("{:.?}", sums)`), after the loop and before they
are multiplied with the step. The functions of `Model/Eval.lean` that can reach it are repeated here with the printed lines; a line is
the list of the sums (its text, Rust's debug format, is not modelled). `Props/Trace.lean` proves that the results are the same.
-/

namespace MUL

/-- Printed lines and outcome of a call. -/
structure Tr (L ε α : Type) where
  out : List L
  res : Out ε α

namespace Tr
variable {L ε α β : Type}

/-- A call that prints nothing. -/
def lift (x : Out ε α) : Tr L ε α := ⟨[], x⟩

/-- `println!` -/
def print (l : L) : Tr L ε Unit := ⟨[l], .ok ()⟩

/-- The `?` operator. -/
def bind (x : Tr L ε α) (f : α → Tr L ε β) : Tr L ε β :=
  match x.res with
  | .ok a => ⟨x.out ++ (f a).out, (f a).res⟩
  | .err e => ⟨x.out, .err e⟩
  | .panic => ⟨x.out, .panic⟩
  | .timeout => ⟨x.out, .timeout⟩

instance : Monad (Tr L ε) where
  pure a := ⟨[], .ok a⟩
  bind := Tr.bind

/-- A loop that collects results. -/
def mapM (f : α → Tr L ε β) : List α → Tr L ε (List β)
  | [] => ⟨[], .ok []⟩
  | a :: l => Tr.bind (f a) fun b => Tr.bind (mapM f l) fun bs => ⟨[], .ok (b :: bs)⟩

end Tr

section
variable {F : Type} [FNum F]

open FArith FElem

/-- What is printed for one integral. -/
abbrev Line (F : Type) := List (Value F)

/-- `eval` with its output. -/
abbrev EvaluatorT (F : Type) := AST F → Context F → Tr (Line F) EvalError (List (Value F))

/-- `integralLoop` (src/maths/calculus.rs 28-41). -/
def integralLoopT (ev : EvaluatorT F) (expr : AST F) (x : Str) (vars : List (Variable F))
    (funs : List (Function F)) (ub dx : F) :
    Nat → F → List (Value F) → Tr (Line F) EvalError (List (Value F))
  | 0, b, sums => .lift (if lt b ub then .timeout else .ok sums)
  | n + 1, b, sums =>
    if lt b ub then do
      let evals ← ev expr ⟨vars ++ [⟨x, [.scalar (div (add b (sub b dx)) (ofInt 2))]⟩], funs⟩
      let sums ← .lift (accumulate sums evals)
      integralLoopT ev expr x vars funs ub dx n (add b dx) sums
    else .lift (.ok sums)

/-- `calculate_integral`  (src/maths/calculus.rs 8-51). -/
def calculateIntegralT (cfg : Cfg) (ev : EvaluatorT F) (fuel : Nat) (expr : AST F) (x : Str)
    (lower upper : Value F) (ctx : Context F) : Tr (Line F) EvalError (List (Value F)) :=
  let vars := eraseFirstVar ctx.vars x
  match lower, upper with
  | .scalar lb0, .scalar ub0 =>
    if beq lb0 ub0 then .lift (.ok [.scalar (ofInt 0)])
    else
      let ub := if lt ub0 lb0 then lb0 else ub0
      let lb := if lt ub0 lb0 then ub0 else lb0
      let dx := div (sub ub lb) (powi (ofInt 10) ((cfg.prec : Int) - 3))
      do
        let sums ← integralLoopT ev expr x vars ctx.funs ub dx fuel lb []
        .print sums
        .lift (sums.mapM fun s => liftMath (vMult s (.scalar dx)))
  | _, _ => .lift (.err (.mathError "Only scalar bounds are allowed!"))

/-- `calculate_derivative`  (src/maths/calculus.rs 59-96). -/
def calculateDerivativeT (cfg : Cfg) (ev : EvaluatorT F) (expr : AST F) (x : Str) (at_ : Value F)
    (ctx : Context F) : Tr (Line F) EvalError (List (Value F)) :=
  let ctx := dropVar ctx x
  match at_ with
  | .scalar s => do
    let ctx := ctx.addVar ⟨x, [at_]⟩
    let fxs ← ev expr ctx
    let ctx := ctx.removeVar x
    let ctx := ctx.addVar ⟨x, [.scalar (add s (powi (ofInt 10) (-(cfg.prec : Int))))]⟩
    let fxhs ← ev expr ctx
    if fxs.length ≠ fxhs.length then
      .lift (.err (.mathError "Amount of solutions for f(x) and f(x+h) are different!"))
    else do
      let res ← Tr.mapM (fun i => do
        let fxh ← .lift (idx fxhs i)
        let fx ← .lift (idx fxs i)
        ev (differenceQuotient cfg fxh fx) ctx) (List.range fxs.length)
      .lift (.ok res.flatten)
  | _ => .lift (.err (.mathError "Only scalar values are allowed!"))

/-- `calculate_derivative_newton`  (src/maths/calculus.rs 98-129). -/
def calculateDerivativeNewtonT (cfg : Cfg) (ev : EvaluatorT F) (expr : AST F) (x : Str)
    (at_ : Value F) (fx : Option (Value F)) (ctx : Context F) : Tr (Line F) EvalError (Value F) :=
  let ctx := dropVar ctx x
  match at_ with
  | .scalar s => do
    let (fx, ctx) ← (match fx with
      | some fx => (.lift (.ok (fx, ctx)) : Tr (Line F) EvalError (Value F × Context F))
      | none => do
        let ctx := ctx.addVar ⟨x, [at_]⟩
        let r ← ev expr ctx
        let fx ← .lift (Out.unwrap r[0]?)
        .lift (.ok (fx, ctx.removeVar x)))
    let ctx := ctx.addVar ⟨x, [.scalar (add s (powi (ofInt 10) (-(cfg.prec : Int))))]⟩
    let r ← ev expr ctx
    let fxh ← .lift (Out.unwrap r[0]?)
    let r ← ev (differenceQuotient cfg fxh fx) ctx
    .lift (Out.unwrap r[0]?)
  | _ => .lift (.err (.mathError "Only scalar values are allowed!"))

/-- `jacobi_and_gauss`  (src/roots.rs 99-136). -/
def jacobiAndGaussT (cfg : Cfg) (ev : EvaluatorT F) (searchExpres : List (AST F))
    (x : List (Variable F)) (ctx : Context F) (fx : List F) : Tr (Line F) EvalError (List (Variable F)) := do
  let jacobi ← Tr.mapM (fun i =>
    Tr.mapM (fun j => do
      let others := ((List.range x.length).filter fun k => j != k).filterMap fun k => x[k]?
      let e ← .lift (idx searchExpres i)
      let xj ← .lift (idx x j)
      let at_ ← .lift (Out.unwrap xj.values[0]?)
      let fxi ← .lift (idx fx i)
      let d ← calculateDerivativeNewtonT cfg ev e xj.name at_ (some (.scalar fxi))
        ⟨ctx.vars ++ others, ctx.funs⟩
      .lift (Out.unwrap d.getScalar)) (List.range x.length)) (List.range searchExpres.length)
  let jacobi ← .lift ((List.range jacobi.length).mapM fun i => do
    let row ← idx jacobi i
    let fxi ← idx fx i
    .ok (row ++ [mul (ofInt (-1)) fxi]))
  let d ← .lift (gaussAlgorithm jacobi)
  .lift ((List.range x.length).mapM fun i => do
    let xi ← idx x i
    let dv ← Out.unwrap d.getVector
    let di ← idx dv i
    let old ← firstScalar xi.values
    .ok ⟨xi.name, [.scalar (add di old)]⟩)

/-- `evalScalars`  (src/roots.rs 148-150, 160-162). -/
def evalScalarsT (ev : EvaluatorT F) (es : List (AST F)) (ctx : Context F) : Tr (Line F) EvalError (List F) :=
  Tr.mapM (fun i => do
    let r ← ev i ctx
    .lift (firstScalar r)) es

/-- `newton`  (src/roots.rs 143-185), as in `Model/Eval.lean`: the outcome and the context after the call. -/
def newtonT (cfg : Cfg) (ev : EvaluatorT F) (searchExpres checkExpres : List (AST F))
    (x : List (Variable F)) (ctx : Context F) : Tr (Line F) EvalError (NewtonReturn F) × Context F :=
  let ctx1 := addVars ctx x
  let r1 := evalScalarsT ev searchExpres ctx1
  match r1.res with
  | .err e => (⟨r1.out, .err e⟩, ctx1)
  | .panic => (⟨r1.out, .panic⟩, ctx1)
  | .timeout => (⟨r1.out, .timeout⟩, ctx1)
  | .ok fx =>
    let ctx2 := removeVars ctx1 x
    if normSmall cfg fx then
      let ctx3 := addVars ctx2 x
      let r2 := evalScalarsT ev checkExpres ctx3
      match r2.res with
      | .err e => (⟨r1.out ++ r2.out, .err e⟩, ctx3)
      | .panic => (⟨r1.out ++ r2.out, .panic⟩, ctx3)
      | .timeout => (⟨r1.out ++ r2.out, .timeout⟩, ctx3)
      | .ok checkResults =>
        let ctx4 := removeVars ctx3 x
        if checkResults.isEmpty then (⟨r1.out ++ r2.out, .ok (.finishedX x)⟩, ctx4)
        else if normSmall cfg checkResults then (⟨r1.out ++ r2.out, .ok (.finishedX x)⟩, ctx4)
        else (⟨r1.out ++ r2.out, .err .expressionCheckFailed⟩, ctx4)
    else
      let r2 := jacobiAndGaussT cfg ev searchExpres x ctx2 fx
      match r2.res with
      | .err e => (⟨r1.out ++ r2.out, .err e⟩, ctx2)
      | .panic => (⟨r1.out ++ r2.out, .panic⟩, ctx2)
      | .timeout => (⟨r1.out ++ r2.out, .timeout⟩, ctx2)
      | .ok newX =>
        match newX.mapM (fun i => (Out.unwrap i.values[0]? : Out EvalError (Value F))) with
        | .ok vs => if vs.any Value.isInfOrNan then (⟨r1.out ++ r2.out, .err .naNOrInf⟩, ctx2)
            else (⟨r1.out ++ r2.out, .ok (.nextX newX)⟩, ctx2)
        | .err e => (⟨r1.out ++ r2.out, .err e⟩, ctx2)
        | .panic => (⟨r1.out ++ r2.out, .panic⟩, ctx2)
        | .timeout => (⟨r1.out ++ r2.out, .timeout⟩, ctx2)

/-- `RootFinder::new`  (src/roots.rs 217-269). -/
def RootFinder.newT (ev : EvaluatorT F) (expressions : List (AST F)) (context : Context F)
    (searchVarsNames : List Str) : Tr (Line F) EvalError (RootFinder F) :=
  if expressions.length = 0 then .lift (.err .nothingToDoEq)
  else if expressions.any fun e => !e.isOperation then .lift (.err .nothingToDoEq)
  else if searchVarsNames.any fun i => (context.vars.map (·.name)).contains i then
    .lift (.err .searchVarsInVars)
  else if searchVarsNames.length > expressions.length then .lift (.err .underdeterminedSystem)
  else do
    let ctx1 := searchVarsNames.foldl (fun c i => c.addVar ⟨i, [.scalar (ofDec 821785 (-5))]⟩) context
    let e0 ← .lift (idx expressions 0)
    let initialRes ← ev e0 ctx1
    let ctx2 := searchVarsNames.foldl (fun c i => c.removeVar i) ctx1
    let v ← .lift (Out.unwrap initialRes[0]?)
    match v with
    | .vector _ => .lift (.err .vectorInEq)
    | .matrix _ => .lift (.err .matrixInEq)
    | .scalar _ =>
      let combs :=
        if searchVarsNames.length < expressions.length then
          generateCombinations (List.range expressions.length) searchVarsNames.length []
        else [List.range expressions.length]
      .lift (.ok ⟨expressions, combs, ctx2, searchVarsNames⟩)

/-- `'solve_loop_1: for _ in 0..1000`  (src/roots.rs 292-322). -/
def solveLoop1T (cfg : Cfg) (ev : EvaluatorT F) (search check : List (AST F)) :
    Nat → List (Variable F) → Context F → Tr (Line F) EvalError (Loop1 F)
  | 0, _, ctx => .lift (.ok ⟨none, false, ctx⟩)
  | n + 1, x, ctx =>
    let r := newtonT cfg ev search check x ctx
    match r.1.res with
    | .ok (.nextX x') =>
      let t := solveLoop1T cfg ev search check n x' r.2
      ⟨r.1.out ++ t.out, t.res⟩
    | .ok (.finishedX finX) => ⟨r.1.out, do
      let v ← resultValue finX
      .ok ⟨some v, false, r.2⟩⟩
    | .err .infiniteSolutions => ⟨r.1.out, .ok ⟨none, true, r.2⟩⟩
    | .err .naNOrInf => ⟨r.1.out, .ok ⟨none, false, r.2⟩⟩
    | .err .expressionCheckFailed => ⟨r.1.out, .ok ⟨none, false, r.2⟩⟩
    | .err e => ⟨r.1.out, .err e⟩
    | .panic => ⟨r.1.out, .panic⟩
    | .timeout => ⟨r.1.out, .timeout⟩

/-- `'solve_loop_0: for j in -1000..1000`  (src/roots.rs 286-323). -/
def solveLoop0T (cfg : Cfg) (ev : EvaluatorT F) (search check : List (AST F)) (names : List Str) :
    List Int → Context F → List (Value F) → Tr (Line F) EvalError (List (Value F))
  | [], _, results => .lift (.ok results)
  | j :: js, ctx, results => do
    let x := names.map fun k => (⟨k, [.scalar (ofInt j)]⟩ : Variable F)
    let r ← solveLoop1T cfg ev search check 1000 x ctx
    let results := match r.found with
      | some v => results ++ [v]
      | none => results
    if r.stop then .lift (.ok results)
    else solveLoop0T cfg ev search check names js r.ctx results

/-- The loop over the combinations of `find_roots`  (src/roots.rs 276-330). -/
def findRootsLoopT (cfg : Cfg) (ev : EvaluatorT F) (rf : RootFinder F) :
    List (List Nat) → Tr (Line F) EvalError (List (Value F))
  | [] => .lift (.ok [])
  | i :: rest => do
    let (search, check) ← .lift (splitExprs i 0 [] rf.expressions)
    let results ← solveLoop0T cfg ev search check rf.searchVarsNames startValues rf.context []
    let cleaned ← .lift (cleanResults cfg results)
    if !cleaned.isEmpty then .lift (.ok cleaned)
    else findRootsLoopT cfg ev rf rest

/-- The evaluation of an equation  (src/parser.rs 565-580). -/
def solveEquationsT (cfg : Cfg) (ev : EvaluatorT F) (equations : List (AST F × AST F))
    (ctx : Context F) (searchVars : List Str) : Tr (Line F) EvalError (List (Value F)) := do
  let finalExpressions := equations.map fun i => AST.simple .sub i.1 i.2
  let rf ← RootFinder.newT ev finalExpressions ctx searchVars
  findRootsLoopT cfg ev rf rf.combinations

/-- `eval_rec`  (src/parser.rs 397-586) with a step budget and its output. -/
def evalRecT (cfg : Cfg) : Nat → AST F → Context F → Str → Tr (Line F) EvalError (List (Value F))
  | 0, _, _, _ => .lift .timeout
  | n + 1, b, ctx, lastFn =>
    match b with
    | .scalar s => .lift (.ok [.scalar s])
    | .vector v => do
      let fields ← Tr.mapM (fun i => do
        let values ← evalRecT cfg n i ctx lastFn
        .lift (allScalars .nonScalarInVector values)) v
      .lift (.ok ((cartProd fields).map .vector))
    | .matrix m => do
      let rows ← Tr.mapM (fun i => Tr.mapM (fun j => do
        let values ← evalRecT cfg n j ctx lastFn
        .lift (allScalars .nonScalarInMatrix values)) i) m
      .lift (.ok ((cartProd (rows.map cartProd)).map .matrix))
    | .list l => do
      let vs ← Tr.mapM (fun e => evalRecT cfg n e ctx lastFn) l
      .lift (.ok vs.flatten)
    | .variable v =>
      match ctx.findVar v with
      | some vs => .lift (.ok vs)
      | none => .lift (.err (.noVariable v))
    | .function name inputs =>
      if lastFn = name then .lift (.err .recursiveFunction)
      else match ctx.findFun name with
        | none => .lift (.err (.noFunction name))
        | some f =>
          if inputs.length ≠ f.inputs.length then
            .lift (.err (.wrongNumberOfArgs f.inputs.length inputs.length))
          else do
            let evalInputs ← Tr.mapM (fun i => evalRecT cfg n i ctx lastFn) inputs
            let res ← Tr.mapM (fun p =>
              evalRecT cfg n f.ast ⟨callVars f.inputs p ctx.vars, ctx.funs⟩ name) (cartProd evalInputs)
            .lift (.ok res.flatten)
    | .simple op left right => do
      let lv ← evalRecT cfg n left ctx lastFn
      let rv ← evalRecT cfg n right ctx lastFn
      .lift (applyAll op lv rv)
    | .integral expr x lower upper => do
      let lb ← evalRecT cfg n lower ctx lastFn
      let ub ← evalRecT cfg n upper ctx lastFn
      let res ← Tr.mapM (fun i => do
        let r ← Tr.mapM (fun j =>
          calculateIntegralT cfg (fun a c => evalRecT cfg n a c []) n expr x i j ctx) ub
        .lift (.ok r.flatten)) lb
      .lift (.ok res.flatten)
    | .derivative expr x at_ => do
      let eat ← evalRecT cfg n at_ ctx lastFn
      let res ← Tr.mapM (fun i =>
        calculateDerivativeT cfg (fun a c => evalRecT cfg n a c []) expr x i ctx) eat
      .lift (.ok res.flatten)
    | .equation equations searchVars =>
      solveEquationsT cfg (fun a c => evalRecT cfg n a c []) equations ctx searchVars

/-- `eval`  (src/parser.rs 393-395) with a step budget and its output. -/
def evalT (cfg : Cfg) (n : Nat) (b : AST F) (ctx : Context F) : Tr (Line F) EvalError (List (Value F)) :=
  evalRecT cfg n b ctx []

/-- `quick_eval`  (src/lib.rs 169-173) with a step budget for the evaluation and its output; `parse` prints nothing. -/
def quickEvalT [UTable] (cfg : Cfg) (n : Nat) (expr : Str) (ctx : Context F) : Tr (Line F) QuickEvalError (List (Value F)) := do
  let b ← .lift ((parse cfg expr).mapErr .parserError)
  let t := evalT cfg n b ctx
  ⟨t.out, t.res.mapErr .evalError⟩

end
end MUL
