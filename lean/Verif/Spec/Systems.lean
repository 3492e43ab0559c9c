import Verif.Spec.Newton
import Mathlib.LinearAlgebra.Matrix.NonsingularInverse
/-!
# Specification for C76: solving several equations

The procedure in terms of real functions of several real variables only. A system is a list of functions (left side minus right side)
of `n` variables; a point is a solution if all of them are zero there.
-/

namespace MUL.Spec
open Matrix

/-- A point with `n` coordinates. -/
abbrev Point (n : Nat) := Fin n → ℝ

/-- The length of the vector of the values of the functions at `x`. -/
noncomputable def misfit {n : Nat} (fs : List (Point n → ℝ)) (x : Point n) : ℝ := √((fs.map fun f => f x ^ 2).sum)

/-- The `i`-th function of the list. -/
def nth {n : Nat} (fs : List (Point n → ℝ)) (i : Nat) : Point n → ℝ := fs.getD i fun _ => 0

/-- The slopes of the functions at `x`: row `i` belongs to function `i`, column `j` to variable `j`. The slope is that of the line
through the points at `x` and at `x` with `h` added to one coordinate. -/
noncomputable def slopes {n : Nat} (h : ℝ) (fs : List (Point n → ℝ)) (x : Point n) : Matrix (Fin n) (Fin n) ℝ :=
  fun i j => (nth fs i (Function.update x j (x j + h)) - nth fs i x) / h

/-- The values of the functions at `x`. -/
def values {n : Nat} (fs : List (Point n → ℝ)) (x : Point n) : Fin n → ℝ := fun i => nth fs i x

/-- The determinant of the first `k` rows and columns. -/
def leadMinor {n : Nat} (A : Matrix (Fin n) (Fin n) ℝ) (k : Nat) (hk : k ≤ n) : ℝ := (A.submatrix (Fin.castLE hk) (Fin.castLE hk)).det

/-- One equation of the linear system `A d = b` is a combination of the first `k`, which are solvable by elimination. -/
def Redundant {n : Nat} (A : Matrix (Fin n) (Fin n) ℝ) (b : Fin n → ℝ) : Prop :=
  ∃ (k : Nat) (hk : k ≤ n) (j : Fin n), 0 < k ∧ k ≤ j ∧ (∀ k' (h' : k' ≤ k), leadMinor A k' (h'.trans hk) ≠ 0) ∧
    ∃ c : Fin k → ℝ, (∀ s, A j s = ∑ t, c t * A (Fin.castLE hk t) s) ∧ b j = ∑ t, c t * b (Fin.castLE hk t)

/-- How a search ends. -/
inductive Search (n : Nat) where
  /-- with a point that is accepted -/
  | found (x : Point n)
  /-- without result -/
  | nothing
  /-- without result, and no other start value is tried -/
  | giveUp

open Classical in
/-- One search for a common zero of the functions `fs` (as many as there are variables) from the start point `x`, with at most the
given number of steps. A point is accepted if the misfit is less than `h`, provided that the other functions `rest` fit as well.
Otherwise the next point is where the linear functions with the same values and slopes are all zero, if it can be calculated by
elimination without exchanging rows. -/
noncomputable def searchFrom {n : Nat} (h : ℝ) (fs rest : List (Point n → ℝ)) : Nat → Point n → Search n
  | 0, _ => .nothing
  | k + 1, x =>
    if misfit fs x < h then (if misfit rest x < h then .found x else .nothing)
    else if Redundant (slopes h fs x) (values fs x) then .giveUp
    else if ∀ k (hk : k ≤ n), leadMinor (slopes h fs x) k hk ≠ 0 then searchFrom h fs rest k (x - (slopes h fs x)⁻¹ *ᵥ values fs x)
    else .nothing

/-- The accepted points for a list of start values, the start point having this value in all coordinates. -/
noncomputable def foundFrom {n : Nat} (h : ℝ) (fs rest : List (Point n → ℝ)) : List ℝ → List (Point n)
  | [] => []
  | s :: starts =>
    match searchFrom h fs rest 1000 (fun _ => s) with
    | .found x => x :: foundFrom h fs rest starts
    | .nothing => foundFrom h fs rest starts
    | .giveUp => []

/-- The start values -1000, …, 999. -/
noncomputable def starts : List ℝ := (List.range 2000).map fun k : Nat => (k : ℝ) - 1000

open Classical in
/-- Keep a point only if no kept one before it has the same coordinates after rounding to `p` decimals. -/
noncomputable def distinctPoints {n : Nat} (p : Nat) (l : List (Point n)) : List (Point n) :=
  l.foldl (fun acc x => if ∃ y ∈ acc, ∀ i, SameRounded p (x i) (y i) then acc else acc ++ [x]) []

/-- What is reported of the points found: the different ones; if there are more than ten, the ten whose first coordinate is smallest in
absolute value, in ascending order of the first coordinate. -/
noncomputable def reportedPoints {n : Nat} (p : Nat) (l : List (Point (n + 1))) : List (Point (n + 1)) :=
  if (distinctPoints p l).length ≤ 10 then distinctPoints p l
  else (((distinctPoints p l).mergeSort fun a b => decide (|a 0| ≤ |b 0|)).take 10).mergeSort fun a b => decide (a 0 ≤ b 0)

/-- All ways to choose `k` elements of a list, in the order of the list, each with the elements not chosen. Choices with the first
element come first. -/
def pick {α : Type} : Nat → List α → List (List α × List α)
  | 0, l => [([], l)]
  | _ + 1, [] => []
  | k + 1, a :: l => ((pick k l).map fun c => (a :: c.1, c.2)) ++ (pick (k + 1) l).map fun c => (c.1, a :: c.2)

/-- What is returned: for the first choice of as many functions as there are variables for which something is found. -/
noncomputable def solutionsOf {n : Nat} (p : Nat) (h : ℝ) (fs : List (Point (n + 1) → ℝ)) : List (Point (n + 1)) :=
  (((pick (n + 1) fs).map fun c => reportedPoints p (foundFrom h c.1 c.2 starts)).find? fun l => !l.isEmpty).getD []

/-- The first value of the expression, as a function of the variables `names`, is `f`. -/
def FunctionOn {F : Type} [FNum F] [Exact F ℝ] {n : Nat} (cfg : Cfg) (ctx : Context F) (names : List Str) (e : AST F) (f : Point n → ℝ) : Prop :=
  ∀ (l : List F) (x : Point n), l.map Exact.val = List.ofFn (fun i => some (x i)) → ∃ r rest,
    Finishes (fun n => eval cfg n e (setVars ctx names l)) (.ok (.scalar r :: rest)) ∧ Exact.val r = some (f x)

end MUL.Spec
