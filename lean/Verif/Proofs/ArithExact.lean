import Verif.Spec.Arith
import Verif.Proofs.MathsShape2
import Mathlib.LinearAlgebra.Matrix.Determinant.Basic
import Mathlib.Algebra.BigOperators.Fin
import Mathlib.Algebra.BigOperators.Group.List.Basic
/-!
# From lists of numbers to vectors and matrices over a field
-/

set_option linter.unusedSectionVars false

namespace MUL
open Spec FArith Out

section
variable {F : Type} [FArith F] {K : Type} [Field K] [LinearOrder K] [IsStrictOrderedRing K] [FloorRing K] [Exact F K]

/-- The list `l` has the entries `x`. -/
def VecIs {n : Nat} (l : List F) (x : Fin n → K) : Prop :=
  ∃ h : l.length = n, ∀ i : Fin n, Exact.val (l[i.1]'(by omega)) = some (x i)

/-- The list of rows `m` has the entries `A`. -/
def MatIs {r c : Nat} (m : List (List F)) (A : Matrix (Fin r) (Fin c) K) : Prop :=
  ∃ h : m.length = r, ∀ i : Fin r, VecIs (m[i.1]'(by omega)) (A i)

theorem vecIs_iff {n : Nat} {l : List F} {x : Fin n → K} :
    VecIs l x ↔ l.map Exact.val = List.ofFn fun i => some (x i) := by
  constructor
  · rintro ⟨h, hx⟩
    apply List.ext_getElem (by simp [h])
    intro i h1 h2
    simp only [List.length_map] at h1
    simpa using hx ⟨i, by omega⟩
  · intro h
    have hl : l.length = n := by simpa using congrArg List.length h
    refine ⟨hl, fun i => ?_⟩
    have := List.getElem_of_eq h (i := i.1) (by simp; omega)
    simpa using this

theorem matIs_iff {r c : Nat} {m : List (List F)} {A : Matrix (Fin r) (Fin c) K} :
    MatIs m A ↔ (m.map fun row => row.map Exact.val) = List.ofFn fun i => List.ofFn fun j => some (A i j) := by
  constructor
  · rintro ⟨h, hx⟩
    apply List.ext_getElem (by simp [h])
    intro i h1 h2
    simp only [List.length_map] at h1
    simpa using vecIs_iff.1 (hx ⟨i, by omega⟩)
  · intro h
    have hl : m.length = r := by simpa using congrArg List.length h
    refine ⟨hl, fun i => vecIs_iff.2 ?_⟩
    have := List.getElem_of_eq h (i := i.1) (by simp; omega)
    simpa using this

theorem isVector_iff {n : Nat} {v : Value F} {x : Fin n → K} : IsVector v x ↔ ∃ l, v = .vector l ∧ VecIs l x := by
  simp only [IsVector, vecIs_iff]

theorem isMatrix_iff {r c : Nat} {v : Value F} {A : Matrix (Fin r) (Fin c) K} : IsMatrix v A ↔ ∃ m, v = .matrix m ∧ MatIs m A := by
  simp only [IsMatrix, matIs_iff]

theorem MatIs.rect {r c : Nat} {m : List (List F)} {A : Matrix (Fin r) (Fin c) K} (h : MatIs m A) : Rect r c m := by
  obtain ⟨h1, h2⟩ := h
  refine ⟨h1, fun l hl => ?_⟩
  obtain ⟨i, hi, rfl⟩ := List.getElem_of_mem hl
  exact (h2 ⟨i, by omega⟩).1

/-- The two readings of an entry. -/
theorem MatIs.entry {r c : Nat} {m : List (List F)} {A : Matrix (Fin r) (Fin c) K} (h : MatIs m A) {i j : Nat} (hi : i < r)
    (hj : j < c) : ∃ (h1 : i < m.length) (h2 : j < m[i].length), Exact.val m[i][j] = some (A ⟨i, hi⟩ ⟨j, hj⟩) := by
  obtain ⟨h1, h2⟩ := h
  obtain ⟨h3, h4⟩ := h2 ⟨i, hi⟩
  exact ⟨by omega, by simp only at h3; omega, h4 ⟨j, hj⟩⟩

theorem VecIs.congr {n : Nat} {l : List F} {x y : Fin n → K} (h : VecIs l x) (hxy : x = y) : VecIs l y := hxy ▸ h
theorem MatIs.congr {r c : Nat} {m : List (List F)} {A B : Matrix (Fin r) (Fin c) K} (h : MatIs m A) (hxy : A = B) : MatIs m B :=
  hxy ▸ h

theorem VecIs.map {n : Nat} {l : List F} {x : Fin n → K} (h : VecIs l x) {f : F → F} {g : K → K}
    (hf : ∀ a x, Exact.val a = some x → Exact.val (f a) = some (g x)) : VecIs (l.map f) (fun i => g (x i)) := by
  obtain ⟨h1, h2⟩ := h
  refine ⟨by simpa using h1, fun i => ?_⟩
  rw [List.getElem_map]
  exact hf _ _ (h2 i)

theorem VecIs.zipWith {n : Nat} {l m : List F} {x y : Fin n → K} (h : VecIs l x) (h' : VecIs m y) {f : F → F → F} {g : K → K → K}
    (hf : ∀ a b x y, Exact.val a = some x → Exact.val b = some y → Exact.val (f a b) = some (g x y)) :
    VecIs (List.zipWith f l m) (fun i => g (x i) (y i)) := by
  obtain ⟨h1, h2⟩ := h
  obtain ⟨h1', h2'⟩ := h'
  refine ⟨by simp [h1, h1'], fun i => ?_⟩
  rw [List.getElem_zipWith]
  exact hf _ _ _ _ (h2 i) (h2' i)

theorem MatIs.map {r c : Nat} {m : List (List F)} {A : Matrix (Fin r) (Fin c) K} (h : MatIs m A) {f : F → F} {g : K → K}
    (hf : ∀ a x, Exact.val a = some x → Exact.val (f a) = some (g x)) :
    MatIs (m.map fun l => l.map f) (Matrix.of fun i j => g (A i j)) := by
  obtain ⟨h1, h2⟩ := h
  refine ⟨by simpa using h1, fun i => ?_⟩
  rw [List.getElem_map]
  exact (h2 i).map hf

theorem MatIs.zipWith {r c : Nat} {l m : List (List F)} {x y : Matrix (Fin r) (Fin c) K} (h : MatIs l x) (h' : MatIs m y)
    {f : F → F → F} {g : K → K → K}
    (hf : ∀ a b x y, Exact.val a = some x → Exact.val b = some y → Exact.val (f a b) = some (g x y)) :
    MatIs (List.zipWith (List.zipWith f) l m) (Matrix.of fun i j => g (x i j) (y i j)) := by
  obtain ⟨h1, h2⟩ := h
  obtain ⟨h1', h2'⟩ := h'
  refine ⟨by simp [h1, h1'], fun i => ?_⟩
  rw [List.getElem_zipWith]
  exact (h2 i).zipWith (h2' i) hf

/-! ## sums -/

theorem vecIs_nil {x : Fin 0 → K} : VecIs ([] : List F) x := ⟨rfl, fun i => i.elim0⟩

theorem vecIs_cons {n : Nat} {a : F} {l : List F} {x : Fin (n + 1) → K} :
    VecIs (a :: l) x ↔ Exact.val a = some (x 0) ∧ VecIs l (fun i : Fin n => x i.succ) := by
  constructor
  · rintro ⟨h1, h2⟩
    refine ⟨h2 0, by simpa using h1, fun i => ?_⟩
    have := h2 i.succ
    simpa using this
  · rintro ⟨h1, h2, h3⟩
    refine ⟨by simpa using h2, fun i => ?_⟩
    refine Fin.cases ?_ (fun j => ?_) i
    · simpa using h1
    · have := h3 j
      simpa using this

theorem sum_fold {n : Nat} {a b : List F} {x y : Fin n → K} (ha : VecIs a x) (hb : VecIs b y) {f : F → F → F} {g : K → K → K}
    (hf : ∀ i : Fin n, ∀ a b, Exact.val a = some (x i) → Exact.val b = some (y i) → Exact.val (f a b) = some (g (x i) (y i)))
    (s : F) (s' : K) (hs : Exact.val s = some s') :
    Exact.val ((a.zip b).foldl (fun s p => add s (f p.1 p.2)) s) = some (s' + ∑ i, g (x i) (y i)) := by
  induction n generalizing a b s s' with
  | zero =>
    have h1 : a = [] := List.length_eq_zero_iff.1 ha.1
    subst h1
    simpa using hs
  | succ n ih =>
    match a, b, ha, hb with
    | [], _, ha, _ => exact absurd ha.1 (by simp)
    | _, [], _, hb => exact absurd hb.1 (by simp)
    | a :: as, b :: bs, ha, hb =>
      obtain ⟨ha0, ha⟩ := vecIs_cons.1 ha
      obtain ⟨hb0, hb⟩ := vecIs_cons.1 hb
      simp only [List.zip_cons_cons, List.foldl_cons]
      have := ih ha hb (fun i => hf i.succ) (add s (f a b)) (s' + g (x 0) (y 0)) (Exact.val_add hs (hf 0 _ _ ha0 hb0))
      rw [this, Fin.sum_univ_succ, add_assoc]

theorem val_zero : Exact.val (ofInt 0 : F) = some (0 : K) := by simpa using Exact.val_ofInt (F := F) (K := K) 0
theorem val_one : Exact.val (ofInt 1 : F) = some (1 : K) := by simpa using Exact.val_ofInt (F := F) (K := K) 1
theorem val_minus_one : Exact.val (ofInt (-1) : F) = some (-1 : K) := by simpa using Exact.val_ofInt (F := F) (K := K) (-1)

theorem dot_val {n : Nat} {a b : List F} {x y : Fin n → K} (ha : VecIs a x) (hb : VecIs b y) :
    Exact.val (dot a b) = some (x ⬝ᵥ y) := by
  have := sum_fold ha hb (f := mul) (g := (· * ·)) (fun _ _ _ h1 h2 => Exact.val_mul h1 h2) (ofInt 0) 0 val_zero
  rw [zero_add] at this
  exact this

theorem MatIs.col {r c : Nat} {m : List (List F)} {A : Matrix (Fin r) (Fin c) K} (h : MatIs m A) {j : Nat} (hj : j < c) :
    VecIs (MUL.col m j) (fun i => A i ⟨j, hj⟩) := by
  have hl := col_length h.rect hj
  refine ⟨hl, fun i => ?_⟩
  obtain ⟨h1, h2, h3⟩ := h.entry i.2 hj
  have := idx2_col (ε := Unit) h.rect.2 hj i.1
  unfold idx2 at this
  rw [idx_lt h1, ok_bind, idx_lt h2, idx_lt (by omega)] at this
  injection this with this
  rw [← this]
  exact h3

theorem MatIs.mul {n k m : Nat} {a b : List (List F)} {A : Matrix (Fin n) (Fin k) K} {B : Matrix (Fin k) (Fin m) K}
    (ha : MatIs a A) (hb : MatIs b B) : MatIs (mulL m a b) (A * B) := by
  obtain ⟨h1, h2⟩ := ha
  refine ⟨by simpa [mulL] using h1, fun i => ?_⟩
  refine ⟨by simp [mulL], fun j => ?_⟩
  simp only [mulL, List.getElem_map, List.getElem_range]
  rw [dot_val (h2 i) (hb.col j.2)]
  rfl

theorem MatIs.mulVec {n k : Nat} {a : List (List F)} {b : List F} {A : Matrix (Fin n) (Fin k) K} {x : Fin k → K}
    (ha : MatIs a A) (hb : VecIs b x) : VecIs (a.map fun l => dot l b) (A.mulVec x) := by
  obtain ⟨h1, h2⟩ := ha
  refine ⟨by simpa using h1, fun i => ?_⟩
  rw [List.getElem_map, dot_val (h2 i) hb]
  rfl

theorem eyeL_is (n : Nat) : MatIs (eyeL n n : List (List F)) (1 : Matrix (Fin n) (Fin n) K) := by
  refine ⟨by simp [eyeL], fun i => ⟨by simp [eyeL], fun j => ?_⟩⟩
  simp only [eyeL, List.getElem_map, List.getElem_range]
  rw [Matrix.one_apply]
  by_cases h : i = j
  · subst h; simpa using val_one
  · rw [if_neg (fun h' => h (Fin.ext h')), if_neg h]; exact val_zero

theorem MatIs.pow {n : Nat} {a : List (List F)} {A : Matrix (Fin n) (Fin n) K} (ha : MatIs a A) (k : Nat) :
    MatIs (powL n a k) (A ^ k) := by
  induction k with
  | zero => rw [pow_zero]; exact eyeL_is n
  | succ k ih => rw [pow_succ]; exact ih.mul ha

/-! ## determinant -/

theorem MatIs.minor {n : Nat} {a : List (List F)} {A : Matrix (Fin (n + 1)) (Fin (n + 1)) K} (ha : MatIs a A) (i : Fin (n + 1)) :
    MatIs (minorL a i.1) (A.submatrix Fin.succ i.succAbove) := by
  have hr := rect_minor ha.rect i.2
  refine ⟨hr.1, fun s => ⟨hr.2 _ (List.getElem_mem _), fun t => ?_⟩⟩
  simp only [minorL, List.getElem_map, List.getElem_drop, Matrix.submatrix_apply]
  obtain ⟨h1, h2, h3⟩ := ha.entry (i := 1 + s.1) (j := (i.succAbove t).1) (by omega) (i.succAbove t).2
  have he : (⟨1 + s.1, by omega⟩ : Fin (n + 1)) = s.succ := Fin.ext (by simp [Nat.add_comm])
  rw [he] at h3
  rw [← h3, List.getElem_eraseIdx]
  congr 1
  by_cases ht : t.1 < i.1
  · rw [dif_pos ht]
    congr 1
    rw [Fin.succAbove_of_castSucc_lt _ _ (by simpa [Fin.lt_def] using ht)]
    rfl
  · rw [dif_neg ht]
    congr 1
    rw [Fin.succAbove_of_le_castSucc _ _ (by simpa [Fin.le_def] using ht)]
    rfl

theorem foldl_zipIdx_sum {n : Nat} (f : F → Nat → F) (g : Nat → K) (l : List F) (k : Nat) (s : F) (s' : K)
    (hl : l.length = n) (hs : Exact.val s = some s')
    (h : ∀ i (hi : i < l.length), Exact.val (f l[i] (k + i)) = some (g (k + i))) :
    Exact.val ((l.zipIdx k).foldl (fun s xi => add s (f xi.1 xi.2)) s) = some (s' + ∑ i : Fin n, g (k + i)) := by
  induction n generalizing l k s s' with
  | zero =>
    have : l = [] := List.length_eq_zero_iff.1 hl
    subst this
    simpa using hs
  | succ n ih =>
    match l, hl with
    | x :: l, hl =>
      simp only [List.zipIdx_cons, List.foldl_cons]
      have h0 := h 0 (by simp)
      simp only [List.getElem_cons_zero, Nat.add_zero] at h0
      have hr := ih l (k + 1) (add s (f x k)) (s' + g k) (by simpa using hl) (Exact.val_add hs h0) (fun i hi => by
        have := h (i + 1) (by simpa using hi)
        simp only [List.getElem_cons_succ] at this
        rw [show k + 1 + i = k + (i + 1) by omega]
        exact this)
      rw [hr, Fin.sum_univ_succ, add_assoc]
      simp only [Fin.val_zero, Nat.add_zero, Fin.val_succ]
      congr 3
      apply Finset.sum_congr rfl
      intro i _
      congr 1
      omega

theorem detL_val {n : Nat} (hn : 0 < n) {a : List (List F)} {A : Matrix (Fin n) (Fin n) K} (ha : MatIs a A) :
    Exact.val (detL n a) = some A.det := by
  induction n using Nat.strongRecOn generalizing a with
  | ind n ih =>
    match n, hn with
    | 1, _ =>
      match a, ha with
      | [r], ha =>
        have h2 := (ha.2 0).1
        simp only [List.getElem_cons_zero, Fin.val_zero] at h2
        match r, h2 with
        | [x], _ =>
          obtain ⟨_, _, h⟩ := ha.entry (i := 0) (j := 0) (by omega) (by omega)
          rw [Matrix.det_unique]
          exact h
      | [], ha => exact absurd ha.1 (by simp)
      | _ :: _ :: _, ha => exact absurd ha.1 (by simp)
    | 2, _ =>
      have hr := ha.rect
      match a, hr.1 with
      | [r, s], _ =>
        have h1 := hr.2 r (by simp)
        have h2 := hr.2 s (by simp)
        match r, s, h1, h2 with
        | [p, q], [u, w], _, _ =>
          obtain ⟨_, _, h00⟩ := ha.entry (i := 0) (j := 0) (by omega) (by omega)
          obtain ⟨_, _, h01⟩ := ha.entry (i := 0) (j := 1) (by omega) (by omega)
          obtain ⟨_, _, h10⟩ := ha.entry (i := 1) (j := 0) (by omega) (by omega)
          obtain ⟨_, _, h11⟩ := ha.entry (i := 1) (j := 1) (by omega) (by omega)
          rw [Matrix.det_fin_two]
          exact Exact.val_sub (Exact.val_mul h00 h11) (Exact.val_mul h01 h10)
    | n + 3, _ =>
      match a, ha with
      | [], ha => exact absurd ha.1 (by simp)
      | a0 :: rest, ha =>
        simp only [detL]
        have hl : a0.length = n + 3 := (ha.2 0).1
        have := foldl_zipIdx_sum (F := F) (K := K) (n := n + 3)
          (fun x i => MUL.FArith.mul (MUL.FArith.mul (powi (ofInt (-1)) i) x) (detL (n + 2) (minorL (a0 :: rest) i)))
          (fun i => if h : i < n + 3 then (-1) ^ i * A 0 ⟨i, h⟩ * (A.submatrix Fin.succ (Fin.succAbove ⟨i, h⟩)).det else 0)
          a0 0 (ofInt 0) 0 hl val_zero (by
            intro i hi
            rw [Nat.zero_add, dif_pos (by omega)]
            refine Exact.val_mul (Exact.val_mul ?_ ?_) ?_
            · have := Exact.val_powi (F := F) (n := (i : Int)) val_minus_one (Or.inl (by omega))
              rw [this, zpow_natCast]
            · obtain ⟨_, _, h⟩ := ha.entry (i := 0) (j := i) (by omega) (by omega)
              exact h
            · exact ih (n + 2) (by omega) (by omega) (ha.minor ⟨i, by omega⟩))
        rw [this, Matrix.det_succ_row_zero, zero_add]
        congr 1
        apply Finset.sum_congr rfl
        intro i _
        simp

end
end MUL
