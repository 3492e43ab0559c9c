import Verif.Spec.FloatLinear
import Verif.Num.Tens
import Verif.Proofs.MathsShape2
import Mathlib.Algebra.BigOperators.Fin
import Mathlib.Algebra.Order.BigOperators.Group.Finset
import Mathlib.Algebra.Order.BigOperators.Ring.Finset
/-!
# Rounding errors of sums of products and of determinants
-/

set_option linter.unusedSectionVars false

namespace MUL
open Spec FArith Out

/-- The unit of rounding. -/
def uu : ℚ := 1 / 2 ^ 53

/-- Error factors. -/
def growth (n : Nat) : ℚ := (1 + uu) ^ n

theorem uu_pos : 0 < uu := by unfold uu; positivity
theorem growth_one_le (n : Nat) : 1 ≤ growth n := one_le_pow₀ (by have := uu_pos; linarith)
theorem growth_pos (n : Nat) : 0 < growth n := by have := growth_one_le n; linarith
theorem growth_zero : growth 0 = 1 := pow_zero _
theorem growth_succ (n : Nat) : growth (n + 1) = growth n * (1 + uu) := pow_succ _ _
theorem growth_add (n m : Nat) : growth (n + m) = growth n * growth m := pow_add _ _ _
theorem growth_mono {n m : Nat} (h : n ≤ m) : growth n ≤ growth m := pow_le_pow_right₀ (by have := uu_pos; linarith) h

theorem growth_le {n : Nat} (h : n ≤ 2 ^ 52) : growth n ≤ 1 + n / 2 ^ 52 := by
  induction n with
  | zero => rw [growth_zero]; norm_num
  | succ n ih =>
    have h1 := ih (by omega)
    rw [growth_succ]
    have h2 : (n : ℚ) ≤ 2 ^ 52 := by
      have : n ≤ 2 ^ 52 := by omega
      exact_mod_cast this
    have h3 := mul_le_mul_of_nonneg_right h1 (show 0 ≤ 1 + uu by have := uu_pos; linarith)
    refine h3.trans ?_
    unfold uu
    push_cast
    have h4 : (0 : ℚ) ≤ n := by positivity
    nlinarith

/-! ## rounding a single number -/

theorem rep_multiple {x : ℚ} (h : Representable x) : ∃ n : Int, x = n * F64.pow2 (-1074) := F64.representable_multiple h

/-- Sums of binary64 numbers never underflow. -/
theorem fl_sum_error {x y : ℚ} (hx : Representable x) (hy : Representable y) : |F64.fl (x + y) - (x + y)| ≤ |x + y| * uu := by
  obtain ⟨n, hn⟩ := rep_multiple hx
  obtain ⟨m, hm⟩ := rep_multiple hy
  have := F64.fl_error_multiple (x := x + y) (n + m) (by push_cast; rw [hn, hm]; ring)
  unfold uu
  rw [mul_one_div]
  exact this

theorem grid_pow2 (k : Nat) (x : ℚ) : OnGrid k x ↔ ∃ m : Int, x = m * F64.pow2 (-(k : Int)) := by
  unfold OnGrid
  have : F64.pow2 (-(k : Int)) = 1 / 2 ^ k := by rw [F64.pow2_eq, zpow_neg, zpow_natCast, one_div]
  rw [this]
  simp only [mul_one_div]

theorem Spec.OnGrid.mono {j k : Nat} (h : j ≤ k) {x : ℚ} (hx : OnGrid j x) : OnGrid k x := by
  obtain ⟨m, rfl⟩ := hx
  refine ⟨m * 2 ^ (k - j), ?_⟩
  push_cast
  have : (2 : ℚ) ^ k = 2 ^ (k - j) * 2 ^ j := by rw [← pow_add]; congr 1; omega
  rw [this]
  field_simp

theorem Spec.OnGrid.add {k : Nat} {x y : ℚ} (hx : OnGrid k x) (hy : OnGrid k y) : OnGrid k (x + y) := by
  obtain ⟨m, rfl⟩ := hx
  obtain ⟨n, rfl⟩ := hy
  exact ⟨m + n, by push_cast; ring⟩

theorem Spec.OnGrid.mul {j k : Nat} {x y : ℚ} (hx : OnGrid j x) (hy : OnGrid k y) : OnGrid (j + k) (x * y) := by
  obtain ⟨m, rfl⟩ := hx
  obtain ⟨n, rfl⟩ := hy
  exact ⟨m * n, by push_cast; rw [pow_add]; field_simp⟩

theorem Spec.OnGrid.neg {k : Nat} {x : ℚ} (hx : OnGrid k x) : OnGrid k (-x) := by
  obtain ⟨m, rfl⟩ := hx
  exact ⟨-m, by push_cast; ring⟩

theorem onGrid_int (m : Int) (k : Nat) : OnGrid k (m : ℚ) := OnGrid.mono (Nat.zero_le k) ⟨m, by simp⟩

/-- Rounding stays on the grid. -/
theorem fl_grid {k : Nat} (hk : k ≤ 1074) {x : ℚ} (hx : OnGrid k x) : OnGrid k (F64.fl x) := by
  rcases le_or_gt (-(k : Int)) (F64.lastBit x) with h | h
  · rw [grid_pow2]
    obtain ⟨n, hn, _⟩ := F64.fl_multiple x
    refine ⟨n * 2 ^ (F64.lastBit x + k).toNat, ?_⟩
    rw [hn]
    push_cast
    rw [← F64.pow2_natCast, mul_assoc, ← F64.pow2_add, Int.toNat_of_nonneg (by omega)]
    congr 2
    omega
  · -- a coarse number is not rounded
    have hx' := hx
    rw [grid_pow2] at hx
    obtain ⟨m, hm⟩ := hx
    have : F64.fl x = x := by
      refine F64.fl_of_multiple (m * 2 ^ (-(k : Int) - F64.lastBit x).toNat) ?_
      push_cast
      rw [← F64.pow2_natCast, mul_assoc, ← F64.pow2_add, Int.toNat_of_nonneg (by omega)]
      rw [show -(k : Int) - F64.lastBit x + F64.lastBit x = -(k : Int) by omega]
      exact hm
    rw [this]
    exact hx'

theorem fl_grid_error {k : Nat} (hk : k ≤ 1074) {x : ℚ} (hx : OnGrid k x) : |F64.fl x - x| ≤ |x| * uu := by
  obtain ⟨m, hm⟩ := (grid_pow2 _ _).1 (hx.mono hk)
  have := F64.fl_error_multiple m hm
  unfold uu
  rwa [mul_one_div]

/-- The error of a product, with underflow. -/
theorem fl_prod_error (x : ℚ) : |F64.fl x - x| ≤ |x| * uu + 1 / 2 ^ 1075 := by
  refine (F64.fl_error x).trans (max_le ?_ ?_)
  · unfold uu
    rw [mul_one_div]
    have : (0 : ℚ) ≤ 1 / 2 ^ 1075 := by positivity
    linarith only [this]
  · have := uu_pos
    have h : 0 ≤ |x| * uu := by positivity
    linarith only [h]

/-! ## sums -/

section
variable {F : Type} [FArith F] [Binary64 F]

/-- `p` stores a number of the grid near `e`. -/
def Term (k : Nat) (p : F) (e A d : ℚ) : Prop := ∃ P : ℚ, Binary64.val p = some P ∧ |P - e| ≤ d ∧ |e| ≤ A ∧ OnGrid k P

theorem fsum_error {k : Nat} (hk : k ≤ 1074) (ps : List F) (n : Nat) (hn : ps.length = n) (e A d : Fin n → ℚ) (h : ∀ i : Fin n, Term k ps[i] (e i) (A i) (d i))
    (s : F) (S E B : ℚ) (hs : Term k s S B E) (hov : growth n * (E + ∑ i, d i + B + ∑ i, A i) < Binary64.limit) :
    ∃ z, Binary64.val (ps.foldl add s) = some z ∧ OnGrid k z ∧
      |z - (S + ∑ i, e i)| ≤ growth n * (E + ∑ i, d i) + (growth n - 1) * (B + ∑ i, A i) := by
  induction n generalizing ps s S E B with
  | zero =>
    obtain rfl : ps = [] := List.length_eq_zero_iff.1 hn
    obtain ⟨z, hz, h1, _, hgr⟩ := hs
    refine ⟨z, hz, hgr, ?_⟩
    simp only [Finset.univ_eq_empty, Finset.sum_empty, add_zero, growth_zero, one_mul, sub_self, zero_mul]
    exact h1
  | succ n ih =>
    match ps, hn with
    | p :: ps, hn =>
      have h0 := h 0
      simp only [Fin.getElem_fin, Fin.val_zero, List.getElem_cons_zero] at h0
      obtain ⟨P, hP, hP1, hP2, hP3⟩ := h0
      obtain ⟨z, hz, hz1, hz2, hz3⟩ := hs
      have hd : ∀ i, 0 ≤ d i := fun i => by obtain ⟨_, _, h1, _, _⟩ := h i; exact (abs_nonneg _).trans h1
      have hA : ∀ i, 0 ≤ A i := fun i => by obtain ⟨_, _, _, h1, _⟩ := h i; exact (abs_nonneg _).trans h1
      have hE : 0 ≤ E := (abs_nonneg _).trans hz1
      have hB : 0 ≤ B := (abs_nonneg _).trans hz2
      rw [Fin.sum_univ_succ, Fin.sum_univ_succ] at hov
      rw [Fin.sum_univ_succ, Fin.sum_univ_succ, Fin.sum_univ_succ]
      have hd' : 0 ≤ ∑ i : Fin n, d i.succ := Finset.sum_nonneg fun i _ => hd _
      have hA' : 0 ≤ ∑ i : Fin n, A i.succ := Finset.sum_nonneg fun i _ => hA _
      set D := ∑ i : Fin n, d i.succ with hDdef
      set AA := ∑ i : Fin n, A i.succ with hAdef
      have hg := growth_one_le n
      have hg' := growth_one_le (n + 1)
      have hu := uu_pos
      have hd0 := hd 0
      have hA0 := hA 0
      have hsum : |z + P| ≤ E + d 0 + (B + A 0) := by
        calc |z + P| = |((z - S) + (P - e 0)) + (S + e 0)| := by ring_nf
          _ ≤ |(z - S) + (P - e 0)| + |S + e 0| := abs_add_le _ _
          _ ≤ (|z - S| + |P - e 0|) + (|S| + |e 0|) := add_le_add (abs_add_le _ _) (abs_add_le _ _)
          _ ≤ _ := by linarith
      have hT : (E + (d 0 + D) + B + (A 0 + ∑ i : Fin n, A i.succ)) ≤ growth (n + 1) * (E + (d 0 + D) + B + (A 0 + ∑ i : Fin n, A i.succ)) :=
        le_mul_of_one_le_left (by linarith) hg'
      have hlim : |z + P| < Binary64.limit := by linarith
      have hadd := Binary64.val_add hz hP hlim
      have herr := fl_sum_error (Binary64.rep hz) (Binary64.rep hP)
      have hterm : Term k (add s p) (S + e 0) (B + A 0) ((E + d 0) * (1 + uu) + uu * (B + A 0)) := by
        refine ⟨_, hadd, ?_, (abs_add_le _ _).trans (by linarith), fl_grid hk (hz3.add hP3)⟩
        calc |F64.fl (z + P) - (S + e 0)| = |(F64.fl (z + P) - (z + P)) + ((z - S) + (P - e 0))| := by ring_nf
          _ ≤ |F64.fl (z + P) - (z + P)| + |(z - S) + (P - e 0)| := abs_add_le _ _
          _ ≤ |F64.fl (z + P) - (z + P)| + (|z - S| + |P - e 0|) := by gcongr; exact abs_add_le _ _
          _ ≤ _ := by
            have : |z + P| * uu ≤ (E + d 0 + (B + A 0)) * uu := by gcongr
            linarith
      have hlen : ps.length = n := by simpa using hn
      obtain ⟨w, hw, hwg, hw2⟩ := ih ps hlen (fun i => e i.succ) (fun i => A i.succ) (fun i => d i.succ) (by
        intro i
        have := h i.succ
        simpa using this) (add s p) (S + e 0) _ _ hterm (by
          refine lt_of_le_of_lt ?_ hov
          rw [growth_succ, mul_assoc]
          refine mul_le_mul_of_nonneg_left ?_ (growth_pos n).le
          have h1 : 0 ≤ uu * D := by positivity
          have h2 : 0 ≤ uu * AA := by positivity
          have h3 : (1 + uu) * (E + (d 0 + D) + B + (A 0 + AA)) -
            ((E + d 0) * (1 + uu) + uu * (B + A 0) + D + (B + A 0) + AA) = uu * D + uu * AA := by ring
          linarith)
      refine ⟨w, hw, hwg, ?_⟩
      have h1 : 0 ≤ growth n * (uu * D) := by have := growth_pos n; positivity
      have h2 : 0 ≤ growth n * (uu * AA) := by have := growth_pos n; positivity
      have h3 : growth (n + 1) * (E + (d 0 + D)) + (growth (n + 1) - 1) * (B + (A 0 + AA)) -
        (growth n * ((E + d 0) * (1 + uu) + uu * (B + A 0) + D) + (growth n - 1) * (B + A 0 + AA)) =
        growth n * (uu * D) + growth n * (uu * AA) := by rw [growth_succ]; ring
      rw [show S + (e 0 + ∑ i : Fin n, e i.succ) = S + e 0 + ∑ i : Fin n, e i.succ by ring]
      linarith

/-! ## vectors and matrices -/

/-- The list `l` stores `x`. -/
def VecSt {n : Nat} (l : List F) (x : Fin n → ℚ) : Prop :=
  ∃ h : l.length = n, ∀ i : Fin n, Binary64.val (l[i.1]'(by omega)) = some (x i)

/-- The list of rows `m` stores `A`. -/
def MatSt {r c : Nat} (m : List (List F)) (A : Matrix (Fin r) (Fin c) ℚ) : Prop :=
  ∃ h : m.length = r, ∀ i : Fin r, VecSt (m[i.1]'(by omega)) (A i)

theorem vecSt_iff {n : Nat} {l : List F} {x : Fin n → ℚ} : VecSt l x ↔ l.map Binary64.val = List.ofFn fun i => some (x i) := by
  constructor
  · rintro ⟨h, hx⟩
    apply List.ext_getElem (by simp [h])
    intro i h1 h2
    simp only [List.length_map] at h1
    simpa using hx ⟨i, by omega⟩
  · intro h
    have hl : l.length = n := by simpa using congrArg List.length h
    refine ⟨hl, fun i => ?_⟩
    have := List.getElem_of_eq h (i := i.1) (by simp; omega)
    simpa using this

theorem matSt_iff {r c : Nat} {m : List (List F)} {A : Matrix (Fin r) (Fin c) ℚ} :
    MatSt m A ↔ (m.map fun row => row.map Binary64.val) = List.ofFn fun i => List.ofFn fun j => some (A i j) := by
  constructor
  · rintro ⟨h, hx⟩
    apply List.ext_getElem (by simp [h])
    intro i h1 h2
    simp only [List.length_map] at h1
    simpa using vecSt_iff.1 (hx ⟨i, by omega⟩)
  · intro h
    have hl : m.length = r := by simpa using congrArg List.length h
    refine ⟨hl, fun i => vecSt_iff.2 ?_⟩
    have := List.getElem_of_eq h (i := i.1) (by simp; omega)
    simpa using this

theorem storesVector_iff {n : Nat} {v : Value F} {x : Fin n → ℚ} : StoresVector v x ↔ ∃ l, v = .vector l ∧ VecSt l x := by
  simp only [StoresVector, vecSt_iff]

theorem storesMatrix_iff {r c : Nat} {v : Value F} {A : Matrix (Fin r) (Fin c) ℚ} :
    StoresMatrix v A ↔ ∃ m, v = .matrix m ∧ MatSt m A := by
  simp only [StoresMatrix, matSt_iff]

theorem MatSt.rect {r c : Nat} {m : List (List F)} {A : Matrix (Fin r) (Fin c) ℚ} (h : MatSt m A) : Rect r c m := by
  obtain ⟨h1, h2⟩ := h
  refine ⟨h1, fun l hl => ?_⟩
  obtain ⟨i, hi, rfl⟩ := List.getElem_of_mem hl
  exact (h2 ⟨i, by omega⟩).1

theorem MatSt.entry {r c : Nat} {m : List (List F)} {A : Matrix (Fin r) (Fin c) ℚ} (h : MatSt m A) {i j : Nat} (hi : i < r)
    (hj : j < c) : ∃ (h1 : i < m.length) (h2 : j < m[i].length), Binary64.val m[i][j] = some (A ⟨i, hi⟩ ⟨j, hj⟩) := by
  obtain ⟨h1, h2⟩ := h
  obtain ⟨h3, h4⟩ := h2 ⟨i, hi⟩
  exact ⟨by omega, by simp only at h3; omega, h4 ⟨j, hj⟩⟩

theorem MatSt.col {r c : Nat} {m : List (List F)} {A : Matrix (Fin r) (Fin c) ℚ} (h : MatSt m A) {j : Nat} (hj : j < c) :
    VecSt (MUL.col m j) (fun i => A i ⟨j, hj⟩) := by
  have hl := col_length h.rect hj
  refine ⟨hl, fun i => ?_⟩
  obtain ⟨h1, h2, h3⟩ := h.entry i.2 hj
  have := idx2_col (ε := Unit) h.rect.2 hj i.1
  unfold idx2 at this
  rw [idx_lt h1, ok_bind, idx_lt h2, idx_lt (by omega)] at this
  injection this with this
  rw [← this]
  exact h3

theorem MatSt.minor {n : Nat} {a : List (List F)} {A : Matrix (Fin (n + 1)) (Fin (n + 1)) ℚ} (ha : MatSt a A) (i : Fin (n + 1)) :
    MatSt (minorL a i.1) (A.submatrix Fin.succ i.succAbove) := by
  have hr := rect_minor ha.rect i.2
  refine ⟨hr.1, fun s => ⟨hr.2 _ (List.getElem_mem _), fun t => ?_⟩⟩
  simp only [minorL, List.getElem_map, List.getElem_drop, Matrix.submatrix_apply]
  obtain ⟨h1, h2, h3⟩ := ha.entry (i := 1 + s.1) (j := (i.succAbove t).1) (by omega) (i.succAbove t).2
  have he : (⟨1 + s.1, by omega⟩ : Fin (n + 1)) = s.succ := Fin.ext (by simp [Nat.add_comm])
  rw [he] at h3
  rw [← h3, List.getElem_eraseIdx]
  congr 1
  by_cases ht : t.1 < i.1
  · rw [dif_pos ht]
    congr 1
    rw [Fin.succAbove_of_castSucc_lt _ _ (by simpa [Fin.lt_def] using ht)]
    rfl
  · rw [dif_neg ht]
    congr 1
    rw [Fin.succAbove_of_le_castSucc _ _ (by simpa [Fin.le_def] using ht)]
    rfl

theorem val_zero64 : Binary64.val (ofInt 0 : F) = some 0 := by
  have h := Binary64.val_ofInt (F := F) 0 (by
    have := rep_lt_limit representable_zero
    simpa using this)
  rw [h, Int.cast_zero, F64.fl_zero]

theorem zero_term (k : Nat) : Term k (ofInt 0 : F) 0 0 0 :=
  ⟨0, val_zero64, by simp, by simp, by simpa using onGrid_int 0 k⟩

theorem limit_1000 : (2 : ℚ) ^ 1010 < Binary64.limit := by
  unfold Binary64.limit
  have h1 : (2 : ℚ) ^ 1024 = 2 * 2 ^ 1023 := pow_succ' 2 1023
  have h2 : (2 : ℚ) ^ 970 ≤ 2 ^ 1010 := pow_le_pow_right₀ (by norm_num) (by norm_num)
  have h3 : (2 : ℚ) ^ 1010 < 2 ^ 1023 := pow_lt_pow_right₀ (by norm_num) (by norm_num)
  generalize (2 : ℚ) ^ 1024 = a at *
  generalize (2 : ℚ) ^ 1023 = b at *
  generalize (2 : ℚ) ^ 970 = c at *
  generalize (2 : ℚ) ^ 1010 = d at *
  linarith

theorem foldl_zip_mul (a b : List F) (s : F) :
    (a.zip b).foldl (fun s p => add s (mul p.1 p.2)) s = (List.zipWith mul a b).foldl add s := by
  rw [← zip_map_uncurry, List.foldl_map]

theorem dot_error {n : Nat} {a b : List F} {x y : Fin n → ℚ} (ha : VecSt a x) (hb : VecSt b y) (hn : n + 1 ≤ 2 ^ 52)
    (hov : absDot x y ≤ 2 ^ 1000) {k : Nat} (hk : k ≤ 1074) {η : ℚ} (hη0 : 0 ≤ η) (hη1 : η ≤ 1)
    (hη : ∀ i, |F64.fl (x i * y i) - x i * y i| ≤ |x i * y i| * uu + η) (hgr : ∀ i, OnGrid k (F64.fl (x i * y i))) :
    ∃ z, Binary64.val (dot a b) = some z ∧ OnGrid k z ∧
      |z - x ⬝ᵥ y| ≤ (n + 1) / 2 ^ 52 * absDot x y + 2 * n * η := by
  have hnonneg : ∀ i, 0 ≤ |x i * y i| := fun i => abs_nonneg _
  have hD0 : 0 ≤ absDot x y := Finset.sum_nonneg fun i _ => hnonneg i
  have big : (2 : ℚ) ^ 53 ≤ 2 ^ 1000 := pow_le_pow_right₀ (by norm_num) (by norm_num)
  have e1010 : (2 : ℚ) ^ 1010 = 2 ^ 10 * 2 ^ 1000 := pow_add 2 10 1000
  have hlim := limit_1000
  rw [e1010] at hlim
  clear e1010
  generalize (2 : ℚ) ^ 1000 = M at *
  unfold dot
  rw [foldl_zip_mul]
  obtain ⟨hla, ha⟩ := ha
  obtain ⟨hlb, hb⟩ := hb
  have hu : uu ≤ 1 / 2 := by unfold uu; norm_num
  have hu0 := uu_pos
  have hgn : growth n ≤ 2 := by
    refine (growth_le (by omega)).trans ?_
    have : (n : ℚ) ≤ 2 ^ 52 := by
      have : n ≤ 2 ^ 52 := by omega
      exact_mod_cast this
    have : (n : ℚ) / 2 ^ 52 ≤ 1 := by rw [div_le_one (by positivity)]; exact this
    linarith
  have hgn0 := growth_pos n
  have hsumd : ∑ i, (|x i * y i| * uu + η) = absDot x y * uu + n * η := by
    rw [Finset.sum_add_distrib, ← Finset.sum_mul, Finset.sum_const, Finset.card_univ, Fintype.card_fin, nsmul_eq_mul]
    rfl
  have hnq : (n : ℚ) ≤ 2 ^ 52 := by
    have : n ≤ 2 ^ 52 := by omega
    exact_mod_cast this
  have hnη : n * η ≤ M := by
    calc (n : ℚ) * η ≤ n * 1 := by gcongr
      _ ≤ M := by linarith
  have hnη0 : 0 ≤ n * η := by positivity
  obtain ⟨z, hz, hzg, hz2⟩ := fsum_error hk (List.zipWith mul a b) n (by simp [hla, hlb]) (fun i => x i * y i) (fun i => |x i * y i|)
    (fun i => |x i * y i| * uu + η) (by
      intro i
      have hxi : |x i * y i| < Binary64.limit := by
        have h1 : |x i * y i| ≤ absDot x y := Finset.single_le_sum (f := fun i => |x i * y i|) (fun i _ => hnonneg i) (Finset.mem_univ i)
        have : 0 ≤ M := hD0.trans hov
        linarith
      refine ⟨F64.fl (x i * y i), ?_, hη i, le_rfl, hgr i⟩
      simp only [Fin.getElem_fin, List.getElem_zipWith]
      exact Binary64.val_mul (ha i) (hb i) hxi) (ofInt 0) 0 0 0 (zero_term k) (by
      rw [hsumd]
      have h1 : absDot x y * uu ≤ absDot x y * (1 / 2) := by gcongr
      have h2 : 0 + (absDot x y * uu + n * η) + 0 + ∑ i, |x i * y i| ≤ 4 * M := by
        show 0 + (absDot x y * uu + n * η) + 0 + absDot x y ≤ 4 * M
        linarith
      have h3 : growth n * (0 + (absDot x y * uu + n * η) + 0 + ∑ i, |x i * y i|) ≤ 2 * (4 * M) :=
        mul_le_mul hgn h2 (by
          show 0 ≤ 0 + (absDot x y * uu + n * η) + 0 + absDot x y
          have : 0 ≤ absDot x y * uu := by positivity
          linarith) (by norm_num)
      have : 0 ≤ M := hD0.trans hov
      linarith)
  refine ⟨z, hz, hzg, ?_⟩
  rw [hsumd, zero_add, zero_add, zero_add] at hz2
  refine hz2.trans ?_
  show growth n * (absDot x y * uu + n * η) + (growth n - 1) * absDot x y ≤ _
  have e : growth n * (absDot x y * uu + n * η) + (growth n - 1) * absDot x y =
      (growth (n + 1) - 1) * absDot x y + growth n * (n * η) := by rw [growth_succ]; ring
  rw [e]
  have h1 : growth (n + 1) - 1 ≤ (n + 1) / 2 ^ 52 := by
    have := growth_le (n := n + 1) (by omega)
    push_cast at this
    linarith
  have h2 : (growth (n + 1) - 1) * absDot x y ≤ (n + 1) / 2 ^ 52 * absDot x y := by gcongr
  have h3 : growth n * (n * η) ≤ 2 * (n * η) := by gcongr
  linarith

theorem rep_grid {x : ℚ} (h : Representable x) : OnGrid 1074 x := (grid_pow2 _ _).2 (rep_multiple h)

/-! ## determinants -/

theorem growth_two {n : Nat} (h : n ≤ 2 ^ 52) : growth n ≤ 2 := by
  refine (growth_le h).trans ?_
  have : (n : ℚ) ≤ 2 ^ 52 := by exact_mod_cast h
  have : (n : ℚ) / 2 ^ 52 ≤ 1 := by rw [div_le_one (by positivity)]; exact this
  linarith

theorem minor_row {n : Nat} (f : Fin (n + 1) → ℚ) (i : Fin (n + 1)) : ∑ t, |f (i.succAbove t)| ≤ ∑ j, |f j| := by
  rw [Fin.sum_univ_succAbove (fun j => |f j|) i]
  have := abs_nonneg (f i)
  linarith

theorem rowBound_nonneg {n : Nat} (A : Matrix (Fin n) (Fin n) ℚ) : 0 ≤ rowBound A :=
  Finset.prod_nonneg fun _ _ => Finset.sum_nonneg fun _ _ => abs_nonneg _

theorem rowBound_le1 {n : Nat} (A : Matrix (Fin n) (Fin n) ℚ) : rowBound A ≤ rowBound1 A :=
  Finset.prod_le_prod (fun _ _ => Finset.sum_nonneg fun _ _ => abs_nonneg _) fun _ _ => le_max_right _ _

theorem rowBound_minor {n : Nat} (A : Matrix (Fin (n + 1)) (Fin (n + 1)) ℚ) (i : Fin (n + 1)) :
    rowBound (A.submatrix Fin.succ i.succAbove) ≤ ∏ s : Fin n, ∑ j, |A s.succ j| :=
  Finset.prod_le_prod (fun _ _ => Finset.sum_nonneg fun _ _ => abs_nonneg _) fun s _ => minor_row (A s.succ) i

theorem rowBound1_minor {n : Nat} (A : Matrix (Fin (n + 1)) (Fin (n + 1)) ℚ) (i : Fin (n + 1)) :
    rowBound1 (A.submatrix Fin.succ i.succAbove) ≤ rowBound1 A := by
  unfold rowBound1
  rw [Fin.prod_univ_succ (fun i => max 1 (∑ j, |A i j|))]
  refine le_trans (Finset.prod_le_prod (fun _ _ => (zero_le_one.trans (le_max_left _ _)))
    fun s _ => max_le_max le_rfl (minor_row (A s.succ) i)) ?_
  exact le_mul_of_one_le_left (Finset.prod_nonneg fun _ _ => zero_le_one.trans (le_max_left _ _)) (le_max_left _ _)

theorem rowBound_expand {n : Nat} (A : Matrix (Fin (n + 1)) (Fin (n + 1)) ℚ) :
    ∑ i, |A 0 i| * rowBound (A.submatrix Fin.succ i.succAbove) ≤ rowBound A := by
  unfold rowBound
  rw [Fin.prod_univ_succ (fun i => ∑ j, |A i j|), Finset.sum_mul]
  exact Finset.sum_le_sum fun i _ => mul_le_mul_of_nonneg_left (rowBound_minor A i) (abs_nonneg _)

theorem det_le_rowBound {n : Nat} (A : Matrix (Fin n) (Fin n) ℚ) : |A.det| ≤ rowBound A := by
  induction n with
  | zero => simp [rowBound]
  | succ n ih =>
    rw [Matrix.det_succ_row_zero]
    refine (Finset.abs_sum_le_sum_abs _ _).trans (le_trans (Finset.sum_le_sum fun i _ => ?_) (rowBound_expand A))
    rw [abs_mul, abs_mul, abs_pow, abs_neg, abs_one, one_pow, one_mul]
    exact mul_le_mul_of_nonneg_left (ih _) (abs_nonneg _)

theorem lt_limit_1000 {x : ℚ} (h : |x| ≤ 4 * 2 ^ 1000) : |x| < Binary64.limit := by
  refine lt_of_le_of_lt (h.trans ?_) limit_1000
  have e1010 : (2 : ℚ) ^ 1010 = 2 ^ 10 * 2 ^ 1000 := pow_add 2 10 1000
  rw [e1010]
  exact mul_le_mul_of_nonneg_right (by norm_num) (by positivity)

theorem lt_limit_four {x B : ℚ} (hB : B ≤ 2 ^ 1000) (h : |x| ≤ 4 * B) : |x| < Binary64.limit :=
  lt_limit_1000 (h.trans (mul_le_mul_of_nonneg_left hB (by norm_num)))

theorem detL_error [Tens F] {n : Nat} (hn : 0 < n) (hmax : n ≤ 2 ^ 25) {a : List (List F)} {A : Matrix (Fin n) (Fin n) ℚ} (ha : MatSt a A)
    {k : Nat} (hk : k * n ≤ 1074) (hgr : ∀ i j, OnGrid k (A i j)) (hov : rowBound1 A ≤ 2 ^ 1000) :
    ∃ z, Binary64.val (detL n a) = some z ∧ OnGrid (k * n) z ∧ |z - A.det| ≤ (growth (n ^ 2) - 1) * rowBound A := by
  induction n using Nat.strongRecOn generalizing a with
  | ind n ih =>
    have hR := rowBound_nonneg A
    have hu := uu_pos
    obtain rfl | rfl | ⟨n, rfl⟩ : n = 1 ∨ n = 2 ∨ ∃ m, n = m + 3 := by
      rcases n with _ | _ | _ | m
      · omega
      · exact .inl rfl
      · exact .inr (.inl rfl)
      · exact .inr (.inr ⟨m, rfl⟩)
    · clear hmax
      match a, ha with
      | [r], ha =>
        have h2 := (ha.2 0).1
        simp only [List.getElem_cons_zero, Fin.val_zero] at h2
        match r, h2 with
        | [x], _ =>
          obtain ⟨_, _, h⟩ := ha.entry (i := 0) (j := 0) (by omega) (by omega)
          rw [Matrix.det_unique]
          refine ⟨A 0 0, h, (hgr 0 0).mono (by omega), ?_⟩
          show |A 0 0 - A 0 0| ≤ _
          rw [sub_self, abs_zero]
          have := growth_one_le (1 ^ 2)
          exact mul_nonneg (by linarith) hR
      | [], ha => exact absurd ha.1 (by simp)
      | _ :: _ :: _, ha => exact absurd ha.1 (by simp)
    · clear hmax
      have hr := ha.rect
      match a, hr.1 with
      | [r, s], _ =>
        have h1 := hr.2 r (by simp)
        have h2 := hr.2 s (by simp)
        match r, s, h1, h2 with
        | [p, q], [u, w], _, _ =>
          obtain ⟨_, _, h00⟩ := ha.entry (i := 0) (j := 0) (by omega) (by omega)
          obtain ⟨_, _, h01⟩ := ha.entry (i := 0) (j := 1) (by omega) (by omega)
          obtain ⟨_, _, h10⟩ := ha.entry (i := 1) (j := 0) (by omega) (by omega)
          obtain ⟨_, _, h11⟩ := ha.entry (i := 1) (j := 1) (by omega) (by omega)
          change Binary64.val p = some (A 0 0) at h00
          change Binary64.val q = some (A 0 1) at h01
          change Binary64.val u = some (A 1 0) at h10
          change Binary64.val w = some (A 1 1) at h11
          have hb : |A 0 0 * A 1 1| + |A 0 1 * A 1 0| ≤ rowBound A := by
            unfold rowBound
            rw [Fin.prod_univ_two, Fin.sum_univ_two, Fin.sum_univ_two, abs_mul, abs_mul]
            have e : (|A 0 0| + |A 0 1|) * (|A 1 0| + |A 1 1|) =
              |A 0 0| * |A 1 1| + |A 0 1| * |A 1 0| + (|A 0 0| * |A 1 0| + |A 0 1| * |A 1 1|) := by ring
            rw [e]
            have : 0 ≤ |A 0 0| * |A 1 0| + |A 0 1| * |A 1 1| := by positivity
            linarith
          have hb1 := (rowBound_le1 A).trans hov
          set X := A 0 0 * A 1 1 with hX
          set Y := A 0 1 * A 1 0 with hY
          have gX : OnGrid (k * 2) X := by rw [mul_two]; exact (hgr _ _).mul (hgr _ _)
          have gY : OnGrid (k * 2) Y := by rw [mul_two]; exact (hgr _ _).mul (hgr _ _)
          have eX := fl_grid_error hk gX
          have eY := fl_grid_error hk gY
          have gX' := fl_grid hk gX
          have gY' := fl_grid hk gY
          have hX0 := abs_nonneg X
          have hY0 := abs_nonneg Y
          have hu1 : uu ≤ 1 := by unfold uu; norm_num
          have hXu : |X| * uu ≤ |X| * 1 := by gcongr
          have hYu : |Y| * uu ≤ |Y| * 1 := by gcongr
          have tri : |F64.fl X - F64.fl Y - (X - Y)| ≤ (|X| + |Y|) * uu := by
            calc |F64.fl X - F64.fl Y - (X - Y)| = |(F64.fl X - X) - (F64.fl Y - Y)| := by ring_nf
              _ ≤ |F64.fl X - X| + |F64.fl Y - Y| := abs_sub _ _
              _ ≤ _ := by linarith
          have size : |F64.fl X - F64.fl Y| ≤ (|X| + |Y|) * (1 + uu) := by
            calc |F64.fl X - F64.fl Y| = |(F64.fl X - F64.fl Y - (X - Y)) + (X - Y)| := by ring_nf
              _ ≤ |F64.fl X - F64.fl Y - (X - Y)| + |X - Y| := abs_add_le _ _
              _ ≤ |F64.fl X - F64.fl Y - (X - Y)| + (|X| + |Y|) := by gcongr; exact abs_sub _ _
              _ ≤ _ := by linarith
          have vX := Binary64.val_mul h00 h11 (lt_limit_four hb1 (by rw [← hX]; linarith only [hb, hX0, hY0, hR]))
          have vY := Binary64.val_mul h01 h10 (lt_limit_four hb1 (by rw [← hY]; linarith only [hb, hX0, hY0, hR]))
          have vS := Binary64.val_sub vX vY (lt_limit_four hb1 (by
            refine size.trans ?_
            linarith only [hXu, hYu, hb, hX0, hY0, hR]))
          have gS : OnGrid (k * 2) (F64.fl X - F64.fl Y) := by rw [sub_eq_add_neg]; exact gX'.add gY'.neg
          refine ⟨_, vS, fl_grid hk gS, ?_⟩
          have eS := fl_grid_error hk gS
          rw [Matrix.det_fin_two]
          have fin : |F64.fl (F64.fl X - F64.fl Y) - (X - Y)| ≤ (growth 2 - 1) * (|X| + |Y|) := by
            calc |F64.fl (F64.fl X - F64.fl Y) - (X - Y)| =
                |(F64.fl (F64.fl X - F64.fl Y) - (F64.fl X - F64.fl Y)) + (F64.fl X - F64.fl Y - (X - Y))| := by ring_nf
              _ ≤ |F64.fl (F64.fl X - F64.fl Y) - (F64.fl X - F64.fl Y)| + |F64.fl X - F64.fl Y - (X - Y)| := abs_add_le _ _
              _ ≤ (|X| + |Y|) * (1 + uu) * uu + (|X| + |Y|) * uu := by
                have : |F64.fl X - F64.fl Y| * uu ≤ (|X| + |Y|) * (1 + uu) * uu := by gcongr
                linarith
              _ = _ := by unfold growth; ring
          refine fin.trans ?_
          have g1 := growth_one_le 2
          have g2 : growth 2 ≤ growth (2 ^ 2) := growth_mono (by norm_num)
          exact mul_le_mul (by linarith) hb (by positivity) (by linarith)
    · match a, ha with
      | [], ha => exact absurd ha.1 (by simp)
      | a0 :: rest, ha =>
        simp only [detL]
        have hl : a0.length = n + 3 := (ha.2 0).1
        have hbig : rowBound A ≤ 2 ^ 1000 := (rowBound_le1 A).trans hov
        have hexp := rowBound_expand A
        have hpoly : (n + 2) ^ 2 + 1 + (n + 3) ≤ (n + 3) ^ 2 := by nlinarith
        have hsq : (n + 3) ^ 2 ≤ 2 ^ 52 := by
          have : (n + 3) ^ 2 ≤ (2 ^ 25) ^ 2 := Nat.pow_le_pow_left hmax 2
          exact this.trans (by norm_num)
        set g := growth ((n + 2) ^ 2) with hg
        have g1 : 1 ≤ g := growth_one_le _
        have g2 : g ≤ 2 := growth_two (by omega)
        have g3 : g * (1 + uu) ≤ 2 := by rw [hg, ← growth_succ]; exact growth_two (by omega)
        set R : Fin (n + 3) → ℚ := fun i => rowBound (A.submatrix Fin.succ i.succAbove) with hRdef
        have hR0 : ∀ i, 0 ≤ R i := fun i => rowBound_nonneg _
        have hAR : ∀ i, |A 0 i| * R i ≤ 2 ^ 1000 := fun i => by
          refine le_trans ?_ (hexp.trans hbig)
          exact Finset.single_le_sum (f := fun i => |A 0 i| * R i) (fun i _ => mul_nonneg (abs_nonneg _) (hR0 i)) (Finset.mem_univ i)
        rw [show (a0.zipIdx.foldl (fun sum xi => FArith.add sum (FArith.mul (FArith.mul (powi (ofInt (-1)) xi.2) xi.1)
            (detL (n + 2) (minorL (a0 :: rest) xi.2)))) (ofInt 0)) =
          (a0.zipIdx.map fun xi => FArith.mul (FArith.mul (powi (ofInt (-1)) xi.2) xi.1)
            (detL (n + 2) (minorL (a0 :: rest) xi.2))).foldl FArith.add (ofInt 0) by rw [List.foldl_map]]
        obtain ⟨z, hz, hzg, hz2⟩ := fsum_error hk (a0.zipIdx.map fun xi => FArith.mul (FArith.mul (powi (ofInt (-1)) xi.2) xi.1)
            (detL (n + 2) (minorL (a0 :: rest) xi.2))) (n + 3) (by simp [hl])
          (fun i => (-1) ^ i.1 * A 0 i * (A.submatrix Fin.succ i.succAbove).det) (fun i => |A 0 i| * R i)
          (fun i => |A 0 i| * R i * (g * (1 + uu) - 1)) (by
            intro i
            simp only [Fin.getElem_fin, List.getElem_map, List.getElem_zipIdx, Nat.zero_add]
            obtain ⟨D, hD, hDg, hDe⟩ := ih (n + 2) (by omega) (by omega) (by omega) (ha.minor i)
              ((Nat.mul_le_mul_left k (by omega : n + 2 ≤ n + 3)).trans hk) (fun s t => hgr _ _) ((rowBound1_minor A i).trans hov)
            obtain ⟨_, _, hx⟩ := ha.entry (i := 0) (j := i.1) (by omega) i.2
            change Binary64.val a0[i.1] = some (A 0 i) at hx
            have hs := Tens.signs (F := F) i.1 (by have := i.2; omega)
            have habs : |(-1 : ℚ) ^ i.1 * A 0 i| = |A 0 i| := by
              rw [abs_mul, abs_pow, abs_neg, abs_one, one_pow, one_mul]
            have hrep : Representable ((-1) ^ i.1 * A 0 i) := by
              rcases neg_one_pow_eq_or ℚ i.1 with h | h <;> rw [h]
              · rw [one_mul]; exact Binary64.rep hx
              · rw [neg_one_mul]; exact representable_neg (Binary64.rep hx)
            have hsx := Binary64.val_mul hs hx (rep_lt_limit hrep)
            rw [F64.fl_representable hrep] at hsx
            have hdet := det_le_rowBound (A.submatrix Fin.succ i.succAbove)
            change |D - (A.submatrix Fin.succ i.succAbove).det| ≤ (g - 1) * R i at hDe
            change |(A.submatrix Fin.succ i.succAbove).det| ≤ R i at hdet
            have hRi := hR0 i
            have hARi := hAR i
            have hx0 := abs_nonneg (A 0 i)
            clear_value R g
            generalize (A.submatrix Fin.succ i.succAbove).det = dd at *
            have hDs : |D| ≤ g * R i := by
              calc |D| = |(D - dd) + dd| := by ring_nf
                _ ≤ |D - dd| + |dd| := abs_add_le _ _
                _ ≤ _ := by linarith
            have hw : |(-1) ^ i.1 * A 0 i * D| ≤ |A 0 i| * (g * R i) := by
              rw [abs_mul, habs]
              exact mul_le_mul_of_nonneg_left hDs hx0
            have hw2 : |A 0 i| * (g * R i) ≤ 2 * (|A 0 i| * R i) := by
              have : 0 ≤ |A 0 i| * R i := by positivity
              nlinarith
            have hgrid : OnGrid (k * (n + 3)) ((-1) ^ i.1 * A 0 i * D) := by
              have e : k * (n + 3) = k + k * (n + 2) := by ring
              rw [e]
              refine OnGrid.mul ?_ hDg
              rcases neg_one_pow_eq_or ℚ i.1 with h | h <;> rw [h]
              · rw [one_mul]; exact hgr 0 i
              · rw [neg_one_mul]; exact (hgr 0 i).neg
            refine ⟨_, Binary64.val_mul hsx hD (lt_limit_1000 ?_), ?_, ?_, fl_grid hk hgrid⟩
            · refine hw.trans (hw2.trans ?_)
              have : (0 : ℚ) ≤ 2 ^ 1000 := by positivity
              generalize (2 : ℚ) ^ 1000 = M at *
              linarith
            · have he := fl_grid_error hk hgrid
              calc |F64.fl ((-1) ^ i.1 * A 0 i * D) - (-1) ^ i.1 * A 0 i * dd| =
                  |(F64.fl ((-1) ^ i.1 * A 0 i * D) - (-1) ^ i.1 * A 0 i * D) + (-1) ^ i.1 * A 0 i * (D - dd)| := by ring_nf
                _ ≤ |F64.fl ((-1) ^ i.1 * A 0 i * D) - (-1) ^ i.1 * A 0 i * D| + |(-1) ^ i.1 * A 0 i * (D - dd)| := abs_add_le _ _
                _ ≤ |A 0 i| * (g * R i) * uu + |A 0 i| * ((g - 1) * R i) := by
                  refine add_le_add (he.trans (by gcongr)) ?_
                  rw [abs_mul, habs]
                  exact mul_le_mul_of_nonneg_left hDe hx0
                _ = _ := by ring
            · rw [abs_mul, habs]
              exact mul_le_mul_of_nonneg_left hdet hx0) (ofInt 0) 0 0 0 (zero_term _) (by
            rw [← Finset.sum_mul]
            change growth (n + 3) * (0 + (∑ i, |A 0 i| * R i) * (g * (1 + uu) - 1) + 0 + ∑ i, |A 0 i| * R i) < _
            change ∑ i, |A 0 i| * R i ≤ rowBound A at hexp
            have hs0 : 0 ≤ ∑ i, |A 0 i| * R i := Finset.sum_nonneg fun i _ => mul_nonneg (abs_nonneg _) (hR0 i)
            generalize ∑ i, |A 0 i| * R i = S at *
            have hgn : growth (n + 3) ≤ 2 := growth_two (by omega)
            have hgp := growth_pos (n + 3)
            have h1 : S * (g * (1 + uu) - 1) ≤ S * 1 := mul_le_mul_of_nonneg_left (by linarith) hs0
            have h0 : 0 ≤ g * (1 + uu) - 1 := by nlinarith
            have h2 : growth (n + 3) * (0 + S * (g * (1 + uu) - 1) + 0 + S) ≤ 2 * (2 * S) :=
              mul_le_mul hgn (by linarith) (by have := mul_nonneg hs0 h0; linarith) (by norm_num)
            have h3 := lt_limit_1000 (x := 2 * (2 * S)) (by
              rw [abs_of_nonneg (by linarith)]
              have := hexp.trans hbig
              generalize (2 : ℚ) ^ 1000 = M at *
              linarith)
            rw [abs_of_nonneg (by linarith)] at h3
            exact lt_of_le_of_lt h2 h3)
        refine ⟨z, hz, hzg, ?_⟩
        rw [← Finset.sum_mul, zero_add, zero_add, zero_add] at hz2
        rw [Matrix.det_succ_row_zero]
        refine hz2.trans ?_
        change growth (n + 3) * ((∑ i, |A 0 i| * R i) * (g * (1 + uu) - 1)) + (growth (n + 3) - 1) * (∑ i, |A 0 i| * R i) ≤ _
        change ∑ i, |A 0 i| * R i ≤ rowBound A at hexp
        have hs0 : 0 ≤ ∑ i, |A 0 i| * R i := Finset.sum_nonneg fun i _ => mul_nonneg (abs_nonneg _) (hR0 i)
        generalize ∑ i, |A 0 i| * R i = S at *
        have e : growth (n + 3) * (S * (g * (1 + uu) - 1)) + (growth (n + 3) - 1) * S = (growth ((n + 2) ^ 2 + 1 + (n + 3)) - 1) * S := by
          rw [growth_add ((n + 2) ^ 2 + 1), growth_succ ((n + 2) ^ 2), hg]; ring
        rw [e]
        have h1 := growth_mono hpoly
        have h2 := growth_one_le ((n + 2) ^ 2 + 1 + (n + 3))
        exact mul_le_mul (by linarith) hexp hs0 (by linarith)

end
end MUL
