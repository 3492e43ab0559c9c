import Verif.Model.Eval
/-!
# Specifications for the evaluator properties (C18-C29, C50)
-/

namespace MUL.Spec

/-- A budgeted computation finishes with the outcome `r` (a value, an error or a panic). -/
def Finishes {ε α : Type} (f : Nat → Out ε α) (r : Out ε α) : Prop := r ≠ .timeout ∧ ∃ n, f n = r

/-- A budgeted computation never returns, whatever the budget. -/
def Diverges {ε α : Type} (f : Nat → Out ε α) : Prop := ∀ n, f n = .timeout

/-- What the operations of the expression language compute for one value of each operand, in terms of
the public functions of the module `maths` (`none` marks an operand that is ignored). -/
def opTable {F : Type} [FNum F] : SimpleOp → Value F → Value F → Out String (List (Value F))
  | .add, a, b => (vAdd a b) >>= fun x => .ok [x]
  | .sub, a, b => (vSub a b) >>= fun x => .ok [x]
  | .addSub, a, b => (vAdd a b) >>= fun x => (vSub a b) >>= fun y => .ok [x, y]
  | .neg, _, b => (vNeg b) >>= fun x => .ok [x]
  | .mult, a, b => (vMult a b) >>= fun x => .ok [x]
  | .hiddenMult, a, b => (vMult a b) >>= fun x => .ok [x]
  | .div, a, b => (vDiv a b) >>= fun x => .ok [x]
  | .cross, a, b => (vCross a b) >>= fun x => .ok [x]
  | .pow, a, b => (vPow a b) >>= fun x => .ok [x]
  | .get, a, b => (vGet a b) >>= fun x => .ok [x]
  | .root, a, b => (vRoot a b) >>= fun x => .ok [x]
  | .sin, a, _ => (vSin a) >>= fun x => .ok [x]
  | .cos, a, _ => (vCos a) >>= fun x => .ok [x]
  | .tan, a, _ => (vTan a) >>= fun x => .ok [x]
  | .arcsin, a, _ => (vArcsin a) >>= fun x => .ok [x]
  | .arccos, a, _ => (vArccos a) >>= fun x => .ok [x]
  | .arctan, a, _ => (vArctan a) >>= fun x => .ok [x]
  | .abs, a, _ => (vAbs a) >>= fun x => .ok [x]
  | .sqrt, a, _ => (vSqrt a) >>= fun x => .ok [x]
  | .ln, a, _ => (vLn a) >>= fun x => .ok [x]
  | .det, a, _ => (vDet a) >>= fun x => .ok [x]
  | .inv, a, _ => (vInv a) >>= fun x => .ok [x]
  | .parenths, a, _ => .ok [a]

/-- All pairs, the first component varying slowest. -/
def pairs {α β : Type} (l : List α) (r : List β) : List (α × β) := l.flatMap fun a => r.map fun b => (a, b)

/-- `Ranked rank ints r b`: every function called anywhere in `b` has a rank below `r`, and `b` contains
integrals only if `ints`. -/
inductive Ranked {F : Type} (rank : Str → Nat) (ints : Prop) (r : Nat) : AST F → Prop
  | scalar (s : F) : Ranked rank ints r (.scalar s)
  | vector (v : List (AST F)) : (∀ a ∈ v, Ranked rank ints r a) → Ranked rank ints r (.vector v)
  | matrix (m : List (List (AST F))) : (∀ l ∈ m, ∀ a ∈ l, Ranked rank ints r a) → Ranked rank ints r (.matrix m)
  | list (l : List (AST F)) : (∀ a ∈ l, Ranked rank ints r a) → Ranked rank ints r (.list l)
  | variable (n : Str) : Ranked rank ints r (.variable n)
  | function (n : Str) (args : List (AST F)) : rank n < r → (∀ a ∈ args, Ranked rank ints r a) →
      Ranked rank ints r (.function n args)
  | simple (op : SimpleOp) (l r' : AST F) : Ranked rank ints r l → Ranked rank ints r r' →
      Ranked rank ints r (.simple op l r')
  | integral (e : AST F) (x : Str) (lo hi : AST F) : ints → Ranked rank ints r e → Ranked rank ints r lo →
      Ranked rank ints r hi → Ranked rank ints r (.integral e x lo hi)
  | derivative (e : AST F) (x : Str) (a : AST F) : Ranked rank ints r e → Ranked rank ints r a →
      Ranked rank ints r (.derivative e x a)
  | equation (eqs : List (AST F × AST F)) (vars : List Str) : (∀ e ∈ eqs, Ranked rank ints r e.1) →
      (∀ e ∈ eqs, Ranked rank ints r e.2) → Ranked rank ints r (.equation eqs vars)

/-- The functions of a context are not cyclic: with some ranking of names, each body only calls functions
of lower rank. -/
def Acyclic {F : Type} (ints : Prop) (funs : List (Function F)) (rank : Str → Nat) : Prop :=
  ∀ f ∈ funs, Ranked rank ints (rank f.name) f.ast

/-- Repeated addition of the step: `b`, `b+dx`, `(b+dx)+dx`, … -/
def stepFrom {F : Type} [FArith F] (b dx : F) : Nat → F
  | 0 => b
  | n + 1 => FArith.add (stepFrom b dx n) dx

/-- Walking from the lower to the upper bound in steps of `(ub-lb)/10^(PREC-3)` arrives within `N` steps. -/
def StepsArrive (F : Type) [FArith F] (cfg : Cfg) (N : Nat) : Prop :=
  ∀ lb ub : F, FArith.lt lb ub = true →
    ∃ k ≤ N, FArith.lt (stepFrom lb
      (FArith.div (FArith.sub ub lb) (FArith.powi (FArith.ofInt 10) ((cfg.prec : Int) - 3))) k) ub = false

/-- `f` is called in `b` outside of integrands, differentiated expressions and equations. -/
inductive DirectCall {F : Type} (f : Str) : AST F → Prop
  | here (args : List (AST F)) : DirectCall f (.function f args)
  | vector (v : List (AST F)) (a : AST F) : a ∈ v → DirectCall f a → DirectCall f (.vector v)
  | matrix (m : List (List (AST F))) (r : List (AST F)) (a : AST F) : r ∈ m → a ∈ r → DirectCall f a →
      DirectCall f (.matrix m)
  | list (l : List (AST F)) (a : AST F) : a ∈ l → DirectCall f a → DirectCall f (.list l)
  | arg (g : Str) (args : List (AST F)) (a : AST F) : a ∈ args → DirectCall f a → DirectCall f (.function g args)
  | left (op : SimpleOp) (l r : AST F) : DirectCall f l → DirectCall f (.simple op l r)
  | right (op : SimpleOp) (l r : AST F) : DirectCall f r → DirectCall f (.simple op l r)
  | lower (e : AST F) (x : Str) (l u : AST F) : DirectCall f l → DirectCall f (.integral e x l u)
  | upper (e : AST F) (x : Str) (l u : AST F) : DirectCall f u → DirectCall f (.integral e x l u)
  | at_ (e : AST F) (x : Str) (a : AST F) : DirectCall f a → DirectCall f (.derivative e x a)

/-- Evaluating the tree cannot succeed without evaluating a call of a function in `S`: it contains such a call, not in an integrand, a list or
an equation other than the first. -/
inductive NeedsCall {F : Type} (S : Str → Prop) : AST F → Prop
  | here (f : Str) (args : List (AST F)) : S f → NeedsCall S (.function f args)
  | vector (v : List (AST F)) (a : AST F) : a ∈ v → NeedsCall S a → NeedsCall S (.vector v)
  | matrix (m : List (List (AST F))) (r : List (AST F)) (a : AST F) : r ∈ m → a ∈ r → NeedsCall S a → NeedsCall S (.matrix m)
  | arg (g : Str) (args : List (AST F)) (a : AST F) : a ∈ args → NeedsCall S a → NeedsCall S (.function g args)
  | left (op : SimpleOp) (l r : AST F) : NeedsCall S l → NeedsCall S (.simple op l r)
  | right (op : SimpleOp) (l r : AST F) : NeedsCall S r → NeedsCall S (.simple op l r)
  | lower (e : AST F) (x : Str) (l u : AST F) : NeedsCall S l → NeedsCall S (.integral e x l u)
  | upper (e : AST F) (x : Str) (l u : AST F) : NeedsCall S u → NeedsCall S (.integral e x l u)
  | at_ (e : AST F) (x : Str) (a : AST F) : NeedsCall S a → NeedsCall S (.derivative e x a)
  | expr (e : AST F) (x : Str) (a : AST F) : NeedsCall S e → NeedsCall S (.derivative e x a)
  | eqLeft (l r : AST F) (eqs : List (AST F × AST F)) (vars : List Str) : NeedsCall S l → NeedsCall S (.equation ((l, r) :: eqs) vars)
  | eqRight (l r : AST F) (eqs : List (AST F × AST F)) (vars : List Str) : NeedsCall S r → NeedsCall S (.equation ((l, r) :: eqs) vars)

/-- The names `b` refers to: variables, search variables of equations (`V`) and functions (`G`). -/
inductive Mentions {F : Type} (V G : Str → Prop) : AST F → Prop
  | scalar (s : F) : Mentions V G (.scalar s)
  | vector (v : List (AST F)) : (∀ a ∈ v, Mentions V G a) → Mentions V G (.vector v)
  | matrix (m : List (List (AST F))) : (∀ l ∈ m, ∀ a ∈ l, Mentions V G a) → Mentions V G (.matrix m)
  | list (l : List (AST F)) : (∀ a ∈ l, Mentions V G a) → Mentions V G (.list l)
  | variable (n : Str) : V n → Mentions V G (.variable n)
  | function (n : Str) (args : List (AST F)) : G n → (∀ a ∈ args, Mentions V G a) →
      Mentions V G (.function n args)
  | simple (op : SimpleOp) (l r' : AST F) : Mentions V G l → Mentions V G r' →
      Mentions V G (.simple op l r')
  | integral (e : AST F) (x : Str) (lo hi : AST F) : Mentions V G e → Mentions V G lo →
      Mentions V G hi → Mentions V G (.integral e x lo hi)
  | derivative (e : AST F) (x : Str) (a : AST F) : Mentions V G e → Mentions V G a →
      Mentions V G (.derivative e x a)
  | equation (eqs : List (AST F × AST F)) (vars : List Str) : (∀ e ∈ eqs, Mentions V G e.1) →
      (∀ e ∈ eqs, Mentions V G e.2) → (∀ v ∈ vars, V v) → Mentions V G (.equation eqs vars)

/-- No variable name is stored twice. -/
def NoDupVars {F : Type} (c : Context F) : Prop := (c.vars.map (·.name)).Nodup

/-- `c` is what the body of a function with the given parameters sees when it is called from `ctx`: each
parameter is the corresponding argument, every other name means the same as in `ctx`. -/
structure BindsParams {F : Type} (ctx : Context F) (params : List Str) (args : List (Value F)) (c : Context F) : Prop where
  nodup : NoDupVars c
  bound : ∀ i (h : i < params.length) (h' : i < args.length), c.findVar params[i] = some [args[i]]
  other : ∀ n, n ∉ params → c.findVar n = ctx.findVar n
  funs : ∀ n, c.findFun n = ctx.findFun n

/-- A well-formed value: vectors are non-empty, matrices non-empty and rectangular with non-empty rows. -/
def WFValue {F : Type} : Value F → Prop
  | .scalar _ => True
  | .vector v => v ≠ []
  | .matrix m => m ≠ [] ∧ ∃ n, 0 < n ∧ ∀ r ∈ m, r.length = n

/-- No equation occurs in the tree (and vectors, matrices are well formed). -/
inductive EqFree {F : Type} : AST F → Prop
  | scalar (s : F) : EqFree (.scalar s)
  | vector (v : List (AST F)) : v ≠ [] → (∀ a ∈ v, EqFree a) → EqFree (.vector v)
  | matrix (m : List (List (AST F))) (n : Nat) : m ≠ [] → 0 < n → (∀ l ∈ m, l.length = n) →
      (∀ l ∈ m, ∀ a ∈ l, EqFree a) → EqFree (.matrix m)
  | list (l : List (AST F)) : (∀ a ∈ l, EqFree a) → EqFree (.list l)
  | variable (n : Str) : EqFree (.variable n)
  | function (n : Str) (args : List (AST F)) : (∀ a ∈ args, EqFree a) → EqFree (.function n args)
  | simple (op : SimpleOp) (l r' : AST F) : EqFree l → EqFree r' → EqFree (.simple op l r')
  | integral (e : AST F) (x : Str) (lo hi : AST F) : EqFree e → EqFree lo → EqFree hi → EqFree (.integral e x lo hi)
  | derivative (e : AST F) (x : Str) (a : AST F) : EqFree e → EqFree a → EqFree (.derivative e x a)

/-- An equation occurs somewhere in the tree. -/
inductive HasEq {F : Type} : AST F → Prop
  | here (es : List (AST F × AST F)) (vs : List Str) : HasEq (.equation es vs)
  | vector (v : List (AST F)) (a : AST F) : a ∈ v → HasEq a → HasEq (.vector v)
  | matrix (m : List (List (AST F))) (r : List (AST F)) (a : AST F) : r ∈ m → a ∈ r → HasEq a → HasEq (.matrix m)
  | list (l : List (AST F)) (a : AST F) : a ∈ l → HasEq a → HasEq (.list l)
  | arg (g : Str) (args : List (AST F)) (a : AST F) : a ∈ args → HasEq a → HasEq (.function g args)
  | left (op : SimpleOp) (l r : AST F) : HasEq l → HasEq (.simple op l r)
  | right (op : SimpleOp) (l r : AST F) : HasEq r → HasEq (.simple op l r)
  | integrand (e : AST F) (x : Str) (l u : AST F) : HasEq e → HasEq (.integral e x l u)
  | lower (e : AST F) (x : Str) (l u : AST F) : HasEq l → HasEq (.integral e x l u)
  | upper (e : AST F) (x : Str) (l u : AST F) : HasEq u → HasEq (.integral e x l u)
  | body (e : AST F) (x : Str) (a : AST F) : HasEq e → HasEq (.derivative e x a)
  | at_ (e : AST F) (x : Str) (a : AST F) : HasEq a → HasEq (.derivative e x a)

/-- All stored values are well formed and no function contains an equation. -/
structure WFCtx {F : Type} (c : Context F) : Prop where
  vals : ∀ v ∈ c.vars, ∀ x ∈ v.values, WFValue x
  funs : ∀ f ∈ c.funs, EqFree f.ast

end MUL.Spec
