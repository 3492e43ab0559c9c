import Verif.Model.Eval
import Verif.Model.Print
import Verif.Model.Values
/-!
# Running the model on the crate's own tests

Nothing here is a proof. `Float` is Lean's binary64 type (compiled code, opaque to the kernel); with it the model can be executed,
and `tools/conformance.sh` runs the tests of src/tests.rs on it, with the literals and the comparisons of that file. A failing test
would mean that the model does not describe the code. The tests `output1`, `output2` need the external LaTeX crates and are left out.
-/

namespace MUL.Conformance
open MUL

/-- Multiplication loop of `__powidf2`. -/
def powiLoop : Nat → Float → Float → Nat → Float
  | 0, _, r, _ => r
  | fuel + 1, a, r, b =>
    let r := if b % 2 = 1 then r * a else r
    if b / 2 = 0 then r else powiLoop fuel (a * a) r (b / 2)

/-- The remainder by 1 (the only divisor the crate uses). -/
def fracPart (x : Float) : Float := if x < 0 then x - x.ceil else x - x.floor

/-- Decimal digits of a whole number; other numbers as Lean prints them. -/
def showFloat (x : Float) : Str :=
  if x == x.round && x.abs < 1e15 then
    (if x < 0 || (x == 0 && 1 / x < 0) then ['-'] else []) ++ (toString x.abs.toUInt64).toList
  else (toString x).toList

instance : FNum Float where
  ofInt := Float.ofInt
  ofDec m e := if 0 ≤ e then Float.ofScientific m false e.toNat else Float.ofScientific m true (-e).toNat
  nan := 0 / 0
  inf b := if b then -1 / 0 else 1 / 0
  add := (· + ·)
  sub := (· - ·)
  mul := (· * ·)
  div := (· / ·)
  rem a _ := fracPart a
  neg := (- ·)
  abs := Float.abs
  round := Float.round
  powi a n := let r := powiLoop 40 a 1 n.natAbs; if n < 0 then 1 / r else r
  beq := (· == ·)
  lt a b := decide (a < b)
  isNaN := Float.isNaN
  isInf := Float.isInf
  isSignNeg x := x.toBits >>> 63 == 1
  toUsize x := x.toUInt64.toNat
  toI32 x := x.toInt32.toInt
  powf := Float.pow
  sqrt := Float.sqrt
  sin := Float.sin
  cos := Float.cos
  tan := Float.tan
  asin := Float.asin
  acos := Float.acos
  atan := Float.atan
  ln := Float.log
  pi := 3.14159265358979323846264338327950288
  e := 2.71828182845904523536028747135266250
  display := showFloat
  displayExp := showFloat

/-- Large enough for every test. -/
def budget : Nat := 10000000

def run (s : String) (ctx : Context Float) : Out QuickEvalError (List (Value Float)) :=
  let _ : UTable := UTable.ascii
  quickEval Cfg.default budget s.toList ctx

def ast (s : String) : AST Float :=
  let _ : UTable := UTable.ascii
  match parse Cfg.default s.toList with
  | .ok a => a
  | _ => .list []

def var (n : String) (v : Value Float) : Variable Float := Variable.new n.toList v
def fn (n : String) (body : String) (inputs : List String) : Function Float :=
  Function.new n.toList (ast body) (inputs.map String.toList)
def empty : Context Float := Context.empty
def vars (l : List (Variable Float)) : Context Float := Context.fromVars l
def funs (l : List (Function Float)) : Context Float := Context.fromFuns l

/-- `assert_eq!` on results, with the crate's `==`. -/
def same : List (Value Float) → List (Value Float) → Bool
  | [], [] => true
  | a :: as, b :: bs => Value.beq a b && same as bs
  | _, _ => false

/-- `let res = quick_eval(s, ctx)?.to_vec(); assert_eq!(res[0], v)` -/
def first (s : String) (ctx : Context Float) (v : Value Float) : Bool :=
  match run s ctx with
  | .ok (a :: _) => Value.beq a v
  | _ => false

/-- `assert_eq!(quick_eval(s, ctx)?.to_vec(), vs)` -/
def all (s : String) (ctx : Context Float) (vs : List (Value Float)) : Bool :=
  match run s ctx with
  | .ok r => same r vs
  | _ => false

/-- `assert_eq!(quick_eval(s, ctx)?.round(p).to_vec(), vs)` -/
def allRound (s : String) (ctx : Context Float) (p : Nat) (vs : List (Value Float)) : Bool :=
  match run s ctx with
  | .ok r => same (valuesRound r p) vs
  | _ => false

/-- `assert_eq!(quick_eval(s, ctx)?.to_vec()[0].round(p), v)` -/
def firstRound (s : String) (ctx : Context Float) (p : Nat) (v : Value Float) : Bool :=
  match run s ctx with
  | .ok (a :: _) => Value.beq (a.round p) v
  | _ => false

/-- `assert_eq!(quick_eval(s, ctx).unwrap_err(), e)` -/
def fails (s : String) (ctx : Context Float) (e : QuickEvalError) : Bool :=
  match run s ctx with
  | .err e' => decide (e' = e)
  | _ => false

/-- `assert_eq!(quick_eval(s, ctx)?.to_vec()[0..4].to_vec(), vs)` -/
def firstFour (s : String) (ctx : Context Float) (vs : List (Value Float)) : Bool :=
  match run s ctx with
  | .ok r => same (r.take 4) vs
  | _ => false

/-- `assert_eq!(quick_eval(s, ctx)?.round(p).to_vec().contains(&v), true)` -/
def contains (s : String) (ctx : Context Float) (p : Nat) (v : Value Float) : Bool :=
  match run s ctx with
  | .ok r => (valuesRound r p).any fun w => Value.beq w v
  | _ => false

def sc (x : Float) : Value Float := .scalar x
def ve (l : List Float) : Value Float := .vector l
def ma (l : List (List Float)) : Value Float := .matrix l

/-- The tests of src/tests.rs, by name. -/
def repoTests : List (String × (Unit → Bool)) := [
  ("easy_eval1", fun _ => first "3*3" empty (sc 9)),
  ("easy_eval2", fun _ => first "3-4-5" empty (sc (-6))),
  ("easy_eval3", fun _ => first "3^2^4" empty (sc 43046721)),
  ("easy_eval4", fun _ => first "[[3, 4, 5], [1, 2, 3], [5, 6, 7]]" empty (ma [[3, 1, 5], [4, 2, 6], [5, 3, 7]])),
  ("easy_eval5", fun _ => first "[3, 3/4, 6]" empty (ve [3, 0.75, 6])),
  ("easy_eval6", fun _ => first "root(8, 3)" empty (sc 2)),
  ("easy_eval7", fun _ => all "&root(9, 2)" empty [sc 3, sc (-3)]),
  ("easy_eval8", fun _ => all "2*(&sqrt(9))" empty [sc 6, sc (-6)]),
  ("easy_eval9", fun _ => all "[{3, 5}, 0, 0]" empty [ve [3, 0, 0], ve [5, 0, 0]]),
  ("easy_eval10", fun _ => first "A*B" (vars [var "A" (ma [[6, 1, 13, 8], [4, 3, 9, 10], [4, 0, 14, 8]]),
    var "B" (ma [[3, 0], [1, 1], [0, 6], [2.5, 2]])]) (ma [[39, 95], [40, 77], [32, 100]])),
  ("easy_eval11", fun _ => String.ofList ((ast "-1").asLatex Cfg.default) == "-1"),
  ("easy_eval12", fun _ => first "inv(A)" (vars [var "A" (ma [[2]])]) (ma [[0.5]])),
  ("medium_eval1", fun _ => first "3x" (vars [var "x" (sc 3)]) (sc 9)),
  ("medium_eval2", fun _ => first "3A" (vars [var "A" (ve [3, 5, 8])]) (ve [9, 15, 24])),
  ("medium_eval3", fun _ => first "B*A" (vars [var "A" (ve [3, 5, 8]), var "B" (ma [[2, 0, 0], [0, 2, 0], [0, 0, 1]])]) (ve [6, 10, 8])),
  ("medium_eval4", fun _ => first "A*B" (vars [var "A" (ma [[3, 5, 7], [4, 8, 2], [1, 9, 2]]),
    var "B" (ma [[7, 9, 10], [1, 55, 8], [22, 9, 2]])]) (ma [[180, 365, 84], [80, 494, 108], [60, 522, 86]])),
  ("medium_eval5", fun _ => first "((3*3))" empty (sc 9)),
  ("medium_eval6", fun _ => fails "[[3, 0, 5], [2, 4, 5], [1, 2]]" empty (.parserError .notRectMatrix)),
  ("medium_eval7", fun _ => fails "[[], [], []]" empty (.parserError .emptyVec)),
  ("medium_eval8", fun _ => fails "" empty (.parserError .emptyExpr)),
  ("medium_eval9", fun _ => fails "[[3, 0,], [2, 4, 5], [1, 2]]" empty (.parserError .emptyExpr)),
  ("medium_eval10", fun _ => fails "[[3, 0, 5], [2, 4], [1, 2,]]" empty (.parserError .emptyExpr)),
  ("medium_eval11", fun _ => first "[-3 ,-5, -2]" empty (ve [-3, -5, -2])),
  ("medium_eval12", fun _ => first "[3, 3*3, -5]" empty (ve [3, 9, -5])),
  ("medium_eval13", fun _ => first "A_{3*6}*3" (vars [var "A_{3*6}" (sc 3)]) (sc 9)),
  ("medium_eval14", fun _ => first "[[1, 0], [0, 6], [0, 0]]*[3, 4, 5]" empty (ve [3, 24])),
  ("medium_eval15", fun _ => first "3(6+2)" empty (sc 24)),
  ("medium_eval16", fun _ => first "3[4, 5, 6]" empty (ve [12, 15, 18])),
  ("medium_eval17", fun _ => first "3*[[2, 0, 0], [0, 1, 0], [0, 0, 5]]*[[1, 0, 0], [0, 1, 0], [0, 0, 1]]*[3, 4, 5]" empty
    (ve [18, 12, 75])),
  ("medium_eval18", fun _ => first "[sqrt(25), 2pi, 3]" Context.default (ve [5, 2 * FElem.pi, 3])),
  ("medium_eval19", fun _ => first "[0, 0.5, 0]#[-0.8, 0, 0.6]" empty (ve [0.3, 0, 0.4])),
  ("medium_eval20", fun _ => first "f(5)" (funs [fn "f" "5x^2+2x+x" ["x"]]) (sc 140)),
  ("medium_eval21", fun _ => first "f([3, 4, 5])" (Context.new [var "A" (ve [3, 4, 5])] [fn "f" "x-A" ["x"]]) (ve [0, 0, 0])),
  ("medium_eval22", fun _ => fails "f(5)" (Context.new [] [fn "f" "3*f(x)" ["x"]]) (.evalError .recursiveFunction)),
  ("medium_eval23", fun _ => first "f(f(6))" (Context.new [] [fn "f" "3*x" ["x"]]) (sc 54)),
  ("medium_eval24", fun _ => all "[&sqrt(9), &sqrt(9), 0]" empty [ve [3, 3, 0], ve [3, -3, 0], ve [-3, 3, 0], ve [-3, -3, 0]]),
  ("medium_eval25", fun _ => all "[[&sqrt(9), 0, 0], [0, 1, 0], [0, 0, 1]]" empty
    [ma [[3, 0, 0], [0, 1, 0], [0, 0, 1]], ma [[-3, 0, 0], [0, 1, 0], [0, 0, 1]]]),
  ("medium_eval26", fun _ => firstFour "f(&sqrt(16), &sqrt(9))" (Context.new [] [fn "f" "&sqrt(x)+y" ["x", "y"]])
    [sc 5, sc 1, sc (-1), sc (-5)]),
  ("medium_eval27", fun _ => all "{3, 2}*{7, 3, 2}" empty [sc 21, sc 9, sc 6, sc 14, sc 6, sc 4]),
  ("medium_eval28", fun _ => first "det(A)" (vars [var "A" (ma [[1, 2, 3], [4, 5, 6], [7, 8, 9]])]) (sc 0)),
  ("medium_eval29", fun _ => first "det(A)" (vars [var "A" (ma [[0, 6, -2, -1, 5], [0, 0, 0, -9, -7], [0, 15, 35, 0, 0],
    [0, -1, -11, -2, 1], [-2, -2, 3, 0, -2]])]) (sc 2480)),
  ("medium_eval30", fun _ => allRound "inv(A)" (vars [var "A" (ma [[-1, 3 / 2], [1, -1]])]) 3 [ma [[2, 3], [2, 2]]]),
  ("medium_eval31", fun _ => allRound "M^20" (vars [var "M" (ma [[0.7, 0.1, 0.3], [0.1, 0.5, 0.1], [0.2, 0.4, 0.6]])]) 3
    [ma [[0.444, 0.444, 0.444], [0.167, 0.167, 0.167], [0.389, 0.389, 0.389]]]),
  ("medium_eval32", fun _ => allRound "M^2" (vars [var "M" (ma [[0, 2, 0], [0.5, 0, 0], [0, 0.8, 0]])]) 3
    [ma [[1, 0, 0], [0, 1, 0], [0.4, 0, 0]]]),
  ("calculus_eval1", fun _ => firstRound "D(x^2, x, 3)" empty 6 (sc 6)),
  ("calculus_eval2", fun _ => firstRound "I(x^2, x, 0, 5)" empty 4 (sc 41.6667)),
  ("calculus_eval3", fun _ => firstRound "1/sqrt(2*250^2*pi)*I(e^(-(x-4000)^2/(2*250^2)), x, 3500, 4500)" Context.default 4 (sc 0.9545)),
  ("hard_eval1", fun _ => first "(x*B*A)?1" (vars [var "A" (ve [3, 2, 1]), var "x" (sc 3),
    var "B" (ma [[2, 3, 4], [5, 1, 7], [2, 3, 6]])]) (sc 72)),
  ("hard_eval2", fun _ => allRound "inv(A)" (vars [var "A" (ma [[-3, -1, 2, -3], [-3, 1, 2, -2], [-2, 3, 0, 1], [1, -2, -3, 1]])]) 3
    [(ma [[-11 / 7, 2, -1, 2 / 7], [-15 / 7, 3, -1, 4 / 7], [2, -3, 1, -1], [23 / 7, -5, 2, -8 / 7]]).round 3]),
  ("easy_solve1", fun _ => allRound "eq(x^2=9, x)" empty 3 [sc (-3), sc 3]),
  ("medium_solve1", fun _ => allRound "eq(3x^2+2x-1=0, x)" empty 3 [sc (-1), (sc (1 / 3)).round 3]),
  ("medium_solve2", fun _ => allRound "eq(2x+5y+2z=-38, 3x-2y+4z=17, -6x+y-7z=-12, x, y, z)" empty 3 [ve [3, -8, -2]]),
  ("medium_solve3", fun _ => allRound "eq(3x-9z=33, 7x-4y-z=-15, 4x+6y+5z=-6, x, y, z)" empty 3 [ve [-1, 3, -4]]),
  ("medium_solve4", fun _ => allRound "eq(f(x)=0, x)" (funs [fn "f" "4x^2-9" ["x"]]) 3 [sc (-1.5), sc 1.5]),
  ("calculus_solve1", fun _ => allRound "eq(D(3x^2+2x-1, x, k)=0, k)" empty 3 [(sc (-1 / 3)).round 3]),
  ("hard_solve1", fun _ => contains ("eq(((25x^3-96x^2+512x+384)/(x^4+2x^3+90x^2-128x+1664)^(1.5))/" ++
      "(-sqrt(1-((32-x+x^2)/(((x-1)^2+25)(x^2+64)))^2))=0, x)") empty 3 (sc (-0.656))),
  ("hard_solve2", fun _ => fails "eq(x*[3, 4, 5]=[6, 8, 10], x)" empty (.evalError .vectorInEq)),
  ("hard_solve3", fun _ => all "eq(400-100x=600-100x, -600-100x=-400-100x, 1000-100x=0+100x, x)" empty []),
  ("hard_solve4", fun _ => allRound "eq(400-100g=600-100k, -600-100g=-400-100k, 1000-100g=100k, g, k)" empty 3 [ve [4, 6]]),
  ("hard_solve5", fun _ => allRound "eq(y=x^2+6x-8, y=4x+7, x, y)" empty 3 [ve [-5, -13], ve [3, 19]]),
  ("hard_solve6", fun _ => allRound "eq(y=1-3x, x^2/4+y^2=1, x, y)" empty 3 [(ve [24 / 37, -35 / 37]).round 3, ve [0, 1]])]

/-- Runs the tests and prints the names of those that fail. -/
def report : IO Unit := do
  let mut bad := 0
  for (name, t) in repoTests do
    if t () then IO.println s!"ok   {name}"
    else
      bad := bad + 1
      IO.println s!"FAIL {name}"
  IO.println s!"{repoTests.length - bad} of {repoTests.length} passed"

end MUL.Conformance
