import Verif.Proofs.FloatLinear
import Verif.Props.FloatRound
import Verif.Proofs.Rounding
/-!
# C75: products and determinants in binary64 arithmetic
-/

set_option linter.unusedSectionVars false

namespace MUL
open Spec FArith Out

section
variable {F : Type} [FNum F] [Binary64 F]

/-! ## Errors of the elimination -/

/-- The message is not `e`. -/
def NoErr {ε α : Type} (e : ε) (x : Out ε α) : Prop := x ≠ .err e

theorem NoErr.ok {ε α : Type} (e : ε) (a : α) : NoErr e (.ok a : Out ε α) := nofun

theorem NoErr.bind {ε α β : Type} {e : ε} {x : Out ε α} {f : α → Out ε β} (h : NoErr e x) (hf : ∀ a, NoErr e (f a)) : NoErr e (x >>= f) := by
  cases x with
  | ok a => exact hf a
  | err e' => intro hh; exact h (by simpa using hh)
  | panic => nofun
  | timeout => nofun

theorem NoErr.mapM {ε α β : Type} {e : ε} {f : α → Out ε β} (l : List α) (hf : ∀ a, NoErr e (f a)) : NoErr e (l.mapM f) := by
  induction l with
  | nil => nofun
  | cons a l ih =>
    rw [List.mapM_cons]
    exact (hf a).bind fun _ => ih.bind fun _ => nofun

theorem NoErr.foldlM {ε α β : Type} {e : ε} {f : β → α → Out ε β} (l : List α) (hf : ∀ b a, NoErr e (f b a)) (b : β) : NoErr e (l.foldlM f b) := by
  induction l generalizing b with
  | nil => nofun
  | cons a l ih =>
    rw [List.foldlM_cons]
    exact (hf b a).bind fun b' => ih b'

theorem NoErr.idx {ε α : Type} (e : ε) (l : List α) (i : Nat) : NoErr e (MUL.idx l i) := by
  unfold MUL.idx NoErr
  cases l[i]? <;> nofun

theorem NoErr.idx2 {ε α : Type} (e : ε) (l : List (List α)) (i j : Nat) : NoErr e (MUL.idx2 l i j) := by
  unfold MUL.idx2
  exact (NoErr.idx e l i).bind fun _ => NoErr.idx e _ j

theorem NoErr.elimStep {ε : Type} {e z : ε} (h : z ≠ e) (v : List (List F)) (ij : Nat × Nat) : NoErr e (MUL.elimStep z v ij) := by
  obtain ⟨i, j⟩ := ij
  unfold MUL.elimStep
  refine (NoErr.idx2 e _ _ _).bind fun _ => (NoErr.idx2 e _ _ _).bind fun _ => (NoErr.idx e _ _).bind fun _ => (NoErr.idx e _ _).bind fun _ =>
    (NoErr.mapM _ fun _ => ?_).bind fun _ => ?_
  · split
    split
    · nofun
    · exact (NoErr.idx e _ _).bind fun _ => nofun
  · split
    · intro hh; exact h (by simpa using hh)
    · nofun

theorem NoErr.eliminate {ε : Type} {e z : ε} (h : z ≠ e) (v : List (List F)) : NoErr e (MUL.eliminate z v) := by
  unfold MUL.eliminate
  exact NoErr.foldlM _ (fun _ _ => NoErr.elimStep h _ _) _

theorem dot_general {n : Nat} {a b : List F} {x y : Fin n → ℚ} (ha : VecSt a x) (hb : VecSt b y) (hn : n < 2 ^ 52)
    (hov : absDot x y ≤ 2 ^ 1000) :
    ∃ z, Binary64.val (dot a b) = some z ∧ |z - x ⬝ᵥ y| ≤ (n + 1) / 2 ^ 52 * absDot x y + n / 2 ^ 1074 := by
  have hη : (1 : ℚ) / 2 ^ 1075 ≤ 1 := by
    rw [div_le_one (by positivity)]
    exact one_le_pow₀ (by norm_num)
  obtain ⟨z, hz, _, h⟩ := dot_error ha hb (by omega) hov (le_refl 1074) (η := 1 / 2 ^ 1075) (by positivity) hη
    (fun i => fl_prod_error _) (fun i => by
      refine rep_grid (F64.representable_fl (F64.fl_no_overflow ?_))
      have h1 : |x i * y i| ≤ absDot x y :=
        Finset.single_le_sum (f := fun i => |x i * y i|) (fun i _ => abs_nonneg _) (Finset.mem_univ i)
      refine lt_limit_four hov (h1.trans ?_)
      have := (abs_nonneg _).trans h1
      linarith only [this])
  refine ⟨z, hz, h.trans_eq ?_⟩
  have e : (2 : ℚ) ^ 1075 = 2 * 2 ^ 1074 := pow_succ' 2 1074
  rw [e]
  have h0 : (2 : ℚ) ^ 1074 ≠ 0 := by positivity
  generalize (2 : ℚ) ^ 1074 = M at *
  field_simp

theorem integer_dot {n : Nat} {a b : List F} {x y : Fin n → Int} (ha : VecSt a fun i => (x i : ℚ)) (hb : VecSt b fun i => (y i : ℚ))
    (h : (n + 1) * ∑ i, |x i * y i| < 2 ^ 52) : Binary64.val (dot a b) = some ((∑ i, x i * y i : Int) : ℚ) := by
  have hs0 : 0 ≤ ∑ i, |x i * y i| := Finset.sum_nonneg fun i _ => abs_nonneg _
  have hcast : absDot (fun i => (x i : ℚ)) (fun i => (y i : ℚ)) = ((∑ i, |x i * y i| : Int) : ℚ) := by
    unfold absDot
    push_cast
    rfl
  have hover : absDot (fun i => (x i : ℚ)) (fun i => (y i : ℚ)) ≤ 2 ^ 52 := by
    rw [hcast]
    have : (∑ i, |x i * y i|) ≤ 2 ^ 52 := by
      have h1 : (1 : Int) * ∑ i, |x i * y i| ≤ (n + 1) * ∑ i, |x i * y i| := mul_le_mul_of_nonneg_right (by omega) hs0
      omega
    exact_mod_cast this
  have hgrid : ∀ i, OnGrid 0 ((x i : ℚ) * y i) := fun i => by
    have := onGrid_int (x i * y i) 0
    push_cast at this
    exact this
  by_cases hn : n + 1 ≤ 2 ^ 52
  · obtain ⟨z, hz, ⟨m, hm⟩, he⟩ := dot_error ha hb hn (hover.trans (pow_le_pow_right₀ (by norm_num) (by norm_num))) (k := 0) (by norm_num) (η := 0)
      le_rfl (by norm_num) (fun i => by rw [add_zero]; exact fl_grid_error (k := 0) (by norm_num) (hgrid i)) (fun i => fl_grid (by norm_num) (hgrid i))
    rw [pow_zero, div_one] at hm
    rw [hz]
    congr 1
    rw [hcast, hm, mul_zero, add_zero] at he
    have h2 : (n + 1 : ℚ) / 2 ^ 52 * ((∑ i, |x i * y i| : Int) : ℚ) < 1 := by
      rw [div_mul_eq_mul_div, div_lt_one (by positivity)]
      exact_mod_cast h
    have h3 : ((fun i => (x i : ℚ)) ⬝ᵥ fun i => (y i : ℚ)) = ((∑ i, x i * y i : Int) : ℚ) := by
      push_cast
      rfl
    rw [h3] at he
    have h4 : |((m - ∑ i, x i * y i : Int) : ℚ)| < 1 := by
      push_cast at he h2 ⊢
      linarith only [he, h2]
    have h5 : |m - ∑ i, x i * y i| < 1 := by exact_mod_cast h4
    have h6 := Int.abs_lt_one_iff.1 h5
    rw [hm]
    congr 1
    omega
  · -- all products are zero
    have hz : ∑ i, |x i * y i| = 0 := by
      by_contra hne
      have h1 : 1 ≤ ∑ i, |x i * y i| := by omega
      have h2 : ((n : Int) + 1) * 1 ≤ (n + 1) * ∑ i, |x i * y i| := mul_le_mul_of_nonneg_left h1 (by omega)
      omega
    have hall : ∀ i, x i * y i = 0 := by
      intro i
      have := (Finset.sum_eq_zero_iff_of_nonneg (fun i _ => abs_nonneg (x i * y i))).1 hz i (Finset.mem_univ i)
      exact abs_eq_zero.1 this
    have hsum : (∑ i, x i * y i) = 0 := Finset.sum_eq_zero fun i _ => hall i
    rw [hsum]
    unfold dot
    rw [foldl_zip_mul]
    obtain ⟨hla, ha⟩ := ha
    obtain ⟨hlb, hb⟩ := hb
    have hterm : ∀ p ∈ List.zipWith mul a b, Binary64.val p = some 0 := by
      intro p hp
      obtain ⟨i, hi, rfl⟩ := List.getElem_of_mem hp
      have hi' : i < n := by simp [hla, hlb] at hi; exact hi
      rw [List.getElem_zipWith]
      have h0 : ((x ⟨i, hi'⟩ : ℚ)) * y ⟨i, hi'⟩ = 0 := by exact_mod_cast hall ⟨i, hi'⟩
      have := Binary64.val_mul (ha ⟨i, hi'⟩) (hb ⟨i, hi'⟩) (by rw [h0]; exact rep_lt_limit representable_zero)
      rw [h0, F64.fl_zero] at this
      exact this
    generalize List.zipWith mul a b = ps at hterm
    have : ∀ s : F, Binary64.val s = some 0 → Binary64.val (ps.foldl add s) = some 0 := by
      induction ps with
      | nil => exact fun s hs => hs
      | cons p ps ih =>
        intro s hs
        refine ih (fun q hq => hterm q (by simp [hq])) _ ?_
        have := Binary64.val_add hs (hterm p (by simp)) (by rw [add_zero]; exact rep_lt_limit representable_zero)
        rwa [add_zero, F64.fl_zero] at this
    simpa using this (ofInt 0) val_zero64

/-! ## Rounding errors -/

/-- **C75**: the dot product of two vectors of `n` numbers: the error is at most `(n+1)/2^52` of the sum of the absolute values of the
products (and `n/2^1074` for products that are too small to be stored). -/
theorem C75_dot {a b : Value F} {n : Nat} {x y : Fin n → ℚ} (ha : StoresVector a x) (hb : StoresVector b y) (hn : n < 2 ^ 52)
    (hov : absDot x y ≤ 2 ^ 1000) :
    ∃ v z, vMult a b = .ok v ∧ StoresScalar v z ∧ |z - x ⬝ᵥ y| ≤ (n + 1) / 2 ^ 52 * absDot x y + n / 2 ^ 1074 := by
  obtain ⟨l, rfl, hl⟩ := storesVector_iff.1 ha
  obtain ⟨m, rfl, hm⟩ := storesVector_iff.1 hb
  obtain ⟨z, hz, h⟩ := dot_general hl hm hn hov
  exact ⟨_, z, vvmult_eq l m (by rw [hl.1, hm.1]), ⟨_, rfl, hz⟩, h⟩

/-- **C75**: a matrix applied to a vector: the same bound for every entry. -/
theorem C75_apply {a b : Value F} {r c : Nat} {A : Matrix (Fin (r + 1)) (Fin c) ℚ} {x : Fin c → ℚ} (ha : StoresMatrix a A)
    (hb : StoresVector b x) (hn : c < 2 ^ 52) (hov : ∀ i, absDot (A i) x ≤ 2 ^ 1000) :
    ∃ v z, vMult a b = .ok v ∧ StoresVector v z ∧
      ∀ i : Fin (r + 1), |z i - A.mulVec x i| ≤ (c + 1) / 2 ^ 52 * absDot (A i) x + c / 2 ^ 1074 := by
  obtain ⟨m, rfl, hm⟩ := storesMatrix_iff.1 ha
  obtain ⟨l, rfl, hl⟩ := storesVector_iff.1 hb
  obtain ⟨h1, h2⟩ := hm
  choose z hz hz2 using fun i => dot_general (h2 i) hl hn (hov i)
  refine ⟨_, z, mvmult_eq (Nat.succ_pos r) (MatSt.rect ⟨h1, h2⟩) hl.1, storesVector_iff.2 ⟨_, rfl, by simpa using h1, fun i => ?_⟩, hz2⟩
  rw [List.getElem_map]
  exact hz i

/-- **C75**: products of matrices: the same bound for every entry. -/
theorem C75_product {a b : Value F} {r c m : Nat} {A : Matrix (Fin (r + 1)) (Fin (c + 1)) ℚ} {B : Matrix (Fin (c + 1)) (Fin m) ℚ}
    (ha : StoresMatrix a A) (hb : StoresMatrix b B) (hn : c + 1 < 2 ^ 52) (hov : ∀ i j, absDot (A i) (fun k => B k j) ≤ 2 ^ 1000) :
    ∃ v C, vMult a b = .ok v ∧ StoresMatrix v C ∧
      ∀ (i : Fin (r + 1)) (j : Fin m), |C i j - (A * B) i j| ≤ (c + 2) / 2 ^ 52 * absDot (A i) (fun k => B k j) + (c + 1) / 2 ^ 1074 := by
  obtain ⟨p, rfl, hp⟩ := storesMatrix_iff.1 ha
  obtain ⟨q, rfl, hq⟩ := storesMatrix_iff.1 hb
  have hp' := hp
  obtain ⟨h1, h2⟩ := hp
  choose C hC hC2 using fun (i : Fin (r + 1)) (j : Fin m) => dot_general (h2 i) (hq.col j.2) hn (hov i j)
  refine ⟨_, C, mmmult_eq (Nat.succ_pos r) (Nat.succ_pos c) hp'.rect hq.rect,
    storesMatrix_iff.2 ⟨_, rfl, by simpa using h1, fun i => ⟨by simp, fun j => ?_⟩⟩, fun i j => ?_⟩
  · simp only [List.getElem_map, List.getElem_range]
    exact hC i j
  · have := hC2 i j
    push_cast at this
    have e : ((c : ℚ) + 1 + 1) = c + 2 := by ring
    rw [e] at this
    exact this

/-- **C75**: the determinant of an `n × n` matrix: the error is at most `n²/2^52` of the product of the row sums (of absolute values). The
entries have to be multiples of `2^-k` with `k n ≤ 1074`, so that no product is too small to be stored. -/
theorem C75_det [Tens F] {a : Value F} {n k : Nat} {A : Matrix (Fin (n + 1)) (Fin (n + 1)) ℚ} (ha : StoresMatrix a A) (hn : n + 1 ≤ 2 ^ 25)
    (hk : k * (n + 1) ≤ 1074) (hgr : ∀ i j, OnGrid k (A i j)) (hov : rowBound1 A ≤ 2 ^ 1000) :
    ∃ v z, vDet a = .ok v ∧ StoresScalar v z ∧ |z - A.det| ≤ (n + 1) ^ 2 / 2 ^ 52 * rowBound A := by
  obtain ⟨m, rfl, hm⟩ := storesMatrix_iff.1 ha
  obtain ⟨z, hz, _, h⟩ := detL_error (Nat.succ_pos n) hn hm hk hgr hov
  refine ⟨_, z, detM_eq (Nat.succ_pos n) hm.rect, ⟨_, rfl, hz⟩, h.trans ?_⟩
  have h1 : (n + 1) ^ 2 ≤ 2 ^ 52 := (Nat.pow_le_pow_left hn 2).trans (by norm_num)
  have h2 := growth_le h1
  push_cast at h2
  exact mul_le_mul_of_nonneg_right (by linarith only [h2]) (rowBound_nonneg A)

/-! ## Whole numbers -/

/-- **C75**: dot products of whole numbers are exact if the sum of the absolute values is below `2^52/(n+1)`. -/
theorem C75_whole_dot {a b : Value F} {n : Nat} {x y : Fin n → Int} (ha : StoresVector a fun i => (x i : ℚ)) (hb : StoresVector b fun i => (y i : ℚ))
    (h : (n + 1) * ∑ i, |x i * y i| < 2 ^ 52) : ∃ v, vMult a b = .ok v ∧ StoresScalar v ((x ⬝ᵥ y : Int) : ℚ) := by
  obtain ⟨l, rfl, hl⟩ := storesVector_iff.1 ha
  obtain ⟨m, rfl, hm⟩ := storesVector_iff.1 hb
  exact ⟨_, vvmult_eq l m (by rw [hl.1, hm.1]), ⟨_, rfl, integer_dot hl hm h⟩⟩

/-- **C75**: so are products of matrices of whole numbers. -/
theorem C75_whole_product {a b : Value F} {r c m : Nat} {A : Matrix (Fin (r + 1)) (Fin (c + 1)) Int} {B : Matrix (Fin (c + 1)) (Fin m) Int}
    (ha : StoresMatrix a (A.map (↑))) (hb : StoresMatrix b (B.map (↑))) (h : ∀ i j, (c + 2) * ∑ k, |A i k * B k j| < 2 ^ 52) :
    ∃ v, vMult a b = .ok v ∧ StoresMatrix v ((A * B).map (↑)) := by
  obtain ⟨p, rfl, hp⟩ := storesMatrix_iff.1 ha
  obtain ⟨q, rfl, hq⟩ := storesMatrix_iff.1 hb
  refine ⟨_, mmmult_eq (Nat.succ_pos r) (Nat.succ_pos c) hp.rect hq.rect,
    storesMatrix_iff.2 ⟨_, rfl, by simpa using hp.1, fun i => ⟨by simp, fun j => ?_⟩⟩⟩
  simp only [List.getElem_map, List.getElem_range]
  refine integer_dot (hp.2 i) (hq.col j.2) ?_
  have := h i j
  push_cast
  have e : ((c : Int) + 1 + 1) = c + 2 := by ring
  rw [e]
  exact this

/-- The determinant of a matrix of whole numbers. -/
theorem integer_det [Tens F] {m : List (List F)} {n : Nat} {A : Matrix (Fin (n + 1)) (Fin (n + 1)) Int} (hm : MatSt m (A.map (↑)))
    (h : (n + 1) ^ 2 * ∏ i, max 1 (∑ j, |A i j|) < 2 ^ 50) : Binary64.val (detL (n + 1) m) = some ((A.det : Int) : ℚ) := by
  have hP1 : 1 ≤ ∏ i, max 1 (∑ j, |A i j|) := by
    refine le_trans (by simp) (Finset.prod_le_prod (f := fun _ => 1) (fun _ _ => zero_le_one) fun i _ => le_max_left _ _)
  have hcast : rowBound1 (A.map ((↑) : Int → ℚ)) = ((∏ i, max 1 (∑ j, |A i j|) : Int) : ℚ) := by
    unfold rowBound1
    push_cast
    rfl
  generalize hP : (∏ i, max 1 (∑ j, |A i j|)) = P at *
  have hn2 : ((n : Int) + 1) ^ 2 < 2 ^ 50 := by
    have : ((n : Int) + 1) ^ 2 * 1 ≤ (n + 1) ^ 2 * P := mul_le_mul_of_nonneg_left hP1 (by positivity)
    omega
  have hn : n + 1 ≤ 2 ^ 25 := by
    by_contra hc
    have h1 : (2 ^ 25 : Int) ≤ n + 1 := by omega
    have h2 : (2 ^ 25 : Int) ^ 2 ≤ (n + 1) ^ 2 := pow_le_pow_left₀ (by norm_num) h1 2
    norm_num at h2 hn2
    omega
  have hPle : P ≤ 2 ^ 50 := by
    have h1 : (1 : Int) * P ≤ (n + 1) ^ 2 * P := mul_le_mul_of_nonneg_right (one_le_pow₀ (by omega)) (by omega)
    omega
  have hPq : (P : ℚ) ≤ 2 ^ 50 := by exact_mod_cast hPle
  obtain ⟨z, hz, ⟨w, hw⟩, he⟩ := detL_error (Nat.succ_pos n) hn hm (k := 0) (by norm_num)
    (fun i j => by simpa using onGrid_int (A i j) 0) (by
      rw [hcast]
      exact hPq.trans (pow_le_pow_right₀ (by norm_num) (by norm_num)))
  rw [zero_mul, pow_zero, div_one] at hw
  have hsq : (n + 1) ^ 2 ≤ 2 ^ 52 := (Nat.pow_le_pow_left hn 2).trans (by norm_num)
  have hg := growth_le hsq
  push_cast at hg
  have hR : rowBound (A.map ((↑) : Int → ℚ)) ≤ P := by rw [← hcast]; exact rowBound_le1 _
  have hdet : (A.map ((↑) : Int → ℚ)).det = ((A.det : Int) : ℚ) := by
    have := (Int.castRingHom ℚ).map_det A
    simpa using this.symm
  rw [hdet, hw] at he
  have h3 : |((w - A.det : Int) : ℚ)| < 1 := by
    rw [Int.cast_sub]
    refine lt_of_le_of_lt he ?_
    have hR0 := rowBound_nonneg (A.map ((↑) : Int → ℚ))
    have hg1 := growth_one_le ((n + 1) ^ 2)
    have h4 : (growth ((n + 1) ^ 2) - 1) * rowBound (A.map ((↑) : Int → ℚ)) ≤ (n + 1) ^ 2 / 2 ^ 52 * P :=
      mul_le_mul (by linarith) hR hR0 (by positivity)
    refine lt_of_le_of_lt h4 ?_
    rw [div_mul_eq_mul_div, div_lt_one (by positivity)]
    have h5 : ((n : ℚ) + 1) ^ 2 * P < 2 ^ 50 := by exact_mod_cast h
    linarith
  have h5 : |w - A.det| < 1 := by exact_mod_cast h3
  have h6 := Int.abs_lt_one_iff.1 h5
  rw [hz, hw]
  congr 2
  omega

/-- **C75**: determinants of whole numbers are exact if the product of the row sums is small enough. -/
theorem C75_whole_det [Tens F] {a : Value F} {n : Nat} {A : Matrix (Fin (n + 1)) (Fin (n + 1)) Int} (ha : StoresMatrix a (A.map (↑)))
    (h : (n + 1) ^ 2 * ∏ i, max 1 (∑ j, |A i j|) < 2 ^ 50) : ∃ v, vDet a = .ok v ∧ StoresScalar v ((A.det : Int) : ℚ) := by
  obtain ⟨m, rfl, hm⟩ := storesMatrix_iff.1 ha
  exact ⟨_, detM_eq (Nat.succ_pos n) hm.rect, ⟨_, rfl, integer_det hm h⟩⟩

/-- **C75**: such a matrix is refused by `inv` as singular exactly if it is singular. -/
theorem C75_singular [Tens F] {a : Value F} {n : Nat} {A : Matrix (Fin (n + 1)) (Fin (n + 1)) Int} (ha : StoresMatrix a (A.map (↑)))
    (h : (n + 1) ^ 2 * ∏ i, max 1 (∑ j, |A i j|) < 2 ^ 50) :
    (A.det = 0 → vInv a = .err "Can't calculate inverse of a matrix with determinant 0!") ∧
    (A.det ≠ 0 → vInv a ≠ .err "Can't calculate inverse of a matrix with determinant 0!") := by
  obtain ⟨m, rfl, hm⟩ := storesMatrix_iff.1 ha
  have hv := integer_det hm h
  have hb : FArith.beq (detL (n + 1) m) (ofInt 0) = decide (((A.det : Int) : ℚ) = 0) := Binary64.beq_val hv val_zero64
  constructor
  · intro h0
    show invM m = _
    unfold invM
    rw [detM_eq (Nat.succ_pos n) hm.rect]
    simp only
    rw [hb, h0]
    simp
  · intro h0
    show invM m ≠ _
    unfold invM
    rw [detM_eq (Nat.succ_pos n) hm.rect]
    simp only
    rw [hb]
    have h1 : decide (((A.det : Int) : ℚ) = 0) = false := by simpa using h0
    rw [h1]
    simp only [Bool.false_eq_true, if_false]
    refine NoErr.bind (NoErr.eliminate (by decide) _) fun _ => NoErr.bind (NoErr.eliminate (by decide) _) fun _ =>
      NoErr.bind (NoErr.mapM _ fun _ => ?_) fun _ => NoErr.ok _ _
    refine NoErr.bind (NoErr.idx _ _ _) fun _ => NoErr.bind (NoErr.idx _ _ _) fun _ => NoErr.bind (NoErr.mapM _ fun _ => ?_) fun _ => NoErr.ok _ _
    exact NoErr.bind (NoErr.idx _ _ _) fun _ => NoErr.ok _ _

end

/-! ## Concrete cases -/

theorem val_ofInt_small (m : Int) (h : |m| ≤ 1000) : Binary64.val (ofInt m : Double) = some (m : ℚ) :=
  val_int (h.trans (by norm_num))

/-- The matrix with the rows `2 1` and `3 4`, and the singular one with the rows `2 1` and `4 2`. -/
def matA64 : Value Double := .matrix [[ofInt 2, ofInt 1], [ofInt 3, ofInt 4]]
def matS64 : Value Double := .matrix [[ofInt 2, ofInt 1], [ofInt 4, ofInt 2]]

theorem matA64_stores : StoresMatrix matA64 ((!![2, 1; 3, 4] : Matrix (Fin 2) (Fin 2) Int).map ((↑) : Int → ℚ)) :=
  ⟨_, rfl, by
    simp only [List.map_cons, List.map_nil, val_ofInt_small 2 (by decide), val_ofInt_small 1 (by decide), val_ofInt_small 3 (by decide),
      val_ofInt_small 4 (by decide)]
    simp [List.ofFn_succ]⟩

theorem matS64_stores : StoresMatrix matS64 ((!![2, 1; 4, 2] : Matrix (Fin 2) (Fin 2) Int).map ((↑) : Int → ℚ)) :=
  ⟨_, rfl, by
    simp only [List.map_cons, List.map_nil, val_ofInt_small 2 (by decide), val_ofInt_small 1 (by decide), val_ofInt_small 4 (by decide)]
    simp [List.ofFn_succ]⟩

/-- The determinant is `5`, the square is `!![7, 6; 18, 19]`; the second matrix has no inverse. -/
example : ∃ v, vDet matA64 = .ok v ∧ StoresScalar v 5 := by
  have := C75_whole_det matA64_stores (by decide)
  rwa [show (!![2, 1; 3, 4] : Matrix (Fin 2) (Fin 2) Int).det = 5 by decide] at this

example : ∃ v, vMult matA64 matA64 = .ok v ∧ StoresMatrix v ((!![7, 6; 18, 19] : Matrix (Fin 2) (Fin 2) Int).map ((↑) : Int → ℚ)) := by
  have := C75_whole_product matA64_stores matA64_stores (by decide)
  rwa [show (!![2, 1; 3, 4] * !![2, 1; 3, 4] : Matrix (Fin 2) (Fin 2) Int) = !![7, 6; 18, 19] by decide] at this

example : vInv matS64 = .err "Can't calculate inverse of a matrix with determinant 0!" := (C75_singular matS64_stores (by decide)).1 (by decide)
example : vInv matA64 ≠ .err "Can't calculate inverse of a matrix with determinant 0!" := (C75_singular matA64_stores (by decide)).2 (by decide)

/-- The hypotheses of `C75_det` and `C75_apply`. -/
example : ∃ v z, vDet matA64 = .ok v ∧ StoresScalar v z ∧
    |z - ((!![2, 1; 3, 4] : Matrix (Fin 2) (Fin 2) Int).map ((↑) : Int → ℚ)).det| ≤ (1 + 1) ^ 2 / 2 ^ 52 * 21 := by
  have hb : rowBound ((!![2, 1; 3, 4] : Matrix (Fin 2) (Fin 2) Int).map ((↑) : Int → ℚ)) = 21 := by
    simp [rowBound, Fin.prod_univ_two, Fin.sum_univ_two]; norm_num
  have hb1 : rowBound1 ((!![2, 1; 3, 4] : Matrix (Fin 2) (Fin 2) Int).map ((↑) : Int → ℚ)) = 21 := by
    simp [rowBound1, Fin.prod_univ_two, Fin.sum_univ_two]; norm_num
  have := C75_det (k := 0) matA64_stores (by norm_num) (by norm_num) (fun i j => by simpa using onGrid_int _ 0) (by
    rw [hb1]
    have : (2 : ℚ) ^ 5 ≤ 2 ^ 1000 := pow_le_pow_right₀ (by norm_num) (by norm_num)
    refine le_trans ?_ this
    norm_num)
  rw [hb] at this
  exact_mod_cast this

/-- The vector `0.1, 0.2, 0.3` and the matrix of its multiples. -/
def vecV64 : Value Double := .vector [ofDec 1 (-1), ofDec 2 (-1), ofDec 3 (-1)]

theorem vecV64_stores : StoresVector vecV64 ![F64.fl (1 / 10), F64.fl (2 / 10), F64.fl (3 / 10)] := by
  refine ⟨_, rfl, ?_⟩
  have h : ∀ n : Nat, n ≤ 9 → Binary64.val (ofDec n (-1) : Double) = some (F64.fl (n / 10)) := by
    intro n hn
    have e : (n : ℚ) * 10 ^ (-1 : Int) = n / 10 := by norm_num; ring
    have hq : (n : ℚ) ≤ 9 := by exact_mod_cast hn
    have h0 : (0 : ℚ) ≤ n := Nat.cast_nonneg n
    rw [Binary64.val_ofDec n (-1) (by
      rw [e]
      have := lt_limit_of_small (x := (n : ℚ) / 10) (by rw [abs_of_nonneg (by positivity)]; linarith)
      rwa [abs_of_nonneg (by positivity)] at this), e]
  simp only [List.map_cons, List.map_nil, h 1 (by norm_num), h 2 (by norm_num), h 3 (by norm_num)]
  simp [List.ofFn_succ]

theorem vecV64_le (n : Nat) (hn : n ≤ 9) : |F64.fl (n / 10)| ≤ 1 := by
  have hq : (n : ℚ) ≤ 9 := by exact_mod_cast hn
  have h0 : (0 : ℚ) ≤ n := Nat.cast_nonneg n
  have h1 : |(n : ℚ) / 10| ≤ 1 := by rw [abs_of_nonneg (by positivity)]; linarith
  have hl := lt_limit_of_small (h1.trans (one_le_pow₀ (by norm_num)))
  have hr : Spec.Representable 1 := by simpa using representable_int (n := 1) (by norm_num)
  rw [abs_le]
  constructor
  · have h3 := fl_mono (x := 0) (y := (n : ℚ) / 10) (by positivity) (by rw [abs_zero]; exact lt_of_le_of_lt (abs_nonneg _) hl) hl
    rw [F64.fl_zero] at h3
    linarith
  · have h4 := fl_mono ((abs_le.1 h1).2) hl (rep_lt_limit hr)
    rwa [F64.fl_representable hr] at h4

theorem vecV64_dot : absDot ![F64.fl (1 / 10), F64.fl (2 / 10), F64.fl (3 / 10)] ![F64.fl (1 / 10), F64.fl (2 / 10), F64.fl (3 / 10)] ≤ 3 := by
  have h : ∀ n : Nat, n ≤ 9 → |F64.fl (n / 10)| * |F64.fl (n / 10)| ≤ 1 := fun n hn =>
    mul_le_one₀ (vecV64_le n hn) (abs_nonneg _) (vecV64_le n hn)
  have h1 := h 1 (by norm_num)
  have h2 := h 2 (by norm_num)
  have h3 := h 3 (by norm_num)
  simp only [Nat.cast_one, Nat.cast_ofNat] at h1 h2 h3
  simp only [absDot, Fin.sum_univ_three, abs_mul]
  simp only [Matrix.cons_val_zero, Matrix.cons_val_one, Matrix.cons_val]
  linarith

/-- The square of its length (about `0.14`) has an error of at most `3 · 2^-50`. -/
example : ∃ v z, vMult vecV64 vecV64 = .ok v ∧ StoresScalar v z ∧
    |z - ![F64.fl (1 / 10), F64.fl (2 / 10), F64.fl (3 / 10)] ⬝ᵥ ![F64.fl (1 / 10), F64.fl (2 / 10), F64.fl (3 / 10)]| ≤ 3 / 2 ^ 50 + 3 / 2 ^ 1074 := by
  obtain ⟨v, z, h1, h2, h3⟩ := C75_dot vecV64_stores vecV64_stores (by norm_num)
    (vecV64_dot.trans (by
      have : (2 : ℚ) ^ 2 ≤ 2 ^ 1000 := pow_le_pow_right₀ (by norm_num) (by norm_num)
      refine le_trans ?_ this
      norm_num))
  refine ⟨v, z, h1, h2, h3.trans (add_le_add ?_ le_rfl)⟩
  have := vecV64_dot
  refine (mul_le_mul_of_nonneg_left this (by positivity)).trans ?_
  norm_num

end MUL
