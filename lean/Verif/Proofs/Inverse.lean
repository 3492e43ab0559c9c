import Verif.Proofs.TwoPhase
import Verif.Model.Eval
/-!
# The inverse and the linear systems: from the loops of the code to matrices
-/

set_option linter.unusedSectionVars false

namespace MUL
open Out FArith Spec

section
variable {F : Type} [FArith F]

/-- The last stage of `inv`. -/
def invRows (n : Nat) (v : List (List F)) : List (List F) :=
  ((List.range n).map fun i => ((List.range' n n).map fun j => mul (cell v i j) (div (ofInt 1) (cell v i i))).reverse).reverse

theorem invM_eq {n : Nat} (hn : 0 < n) {a : List (List F)} (ha : Rect n n a) :
    invM a = if beq (detL n a) (ofInt 0) then .err "Can't calculate inverse of a matrix with determinant 0!"
      else eliminate "Infinite solutions" (augL n a) >>= fun v =>
        eliminate "Infinite solutions" ((v.reverse.map List.reverse).map (rotate n)) >>= fun v => .ok (.matrix (invRows n v)) := by
  unfold invM
  rw [detM_eq hn ha]
  simp only
  split
  · rfl
  · have h1 : Rect n (n + n) (augL a.length a) := by rw [ha.1]; exact rect_aug ha n
    rw [ha.1] at h1
    simp only [ha.1]
    refine bind_congr (x := eliminate _ (augL n a)) fun v hv => ?_
    have hv := (eliminate_post _ h1 (by omega)).of_ok hv
    refine bind_congr fun v' hv' => ?_
    have hv' := (eliminate_post _ (rect_rotate (rect_reverse hv) n) (by omega)).of_ok hv'
    have hrows : ((List.range v'.length).mapM fun i => do
          let vi ← idx v' i
          let p ← idx vi i
          let mult := div (ofInt 1) p
          let row ← (List.range' (vi.length - n) n).mapM fun j => do
            let x ← idx vi j
            (.ok (mul x mult) : Out String F)
          .ok row.reverse) = .ok ((List.range n).map fun i =>
            ((List.range' n n).map fun j => mul (cell v' i j) (div (ofInt 1) (cell v' i i))).reverse) := by
      rw [hv'.1]
      refine mapM_ok_of_forall fun i hi => ?_
      have hi : i < v'.length := by rw [hv'.1]; exact List.mem_range.1 hi
      have hl : v'[i].length = n + n := hv'.2 _ (List.getElem_mem _)
      have hiv : i < n := by rw [← hv'.1]; exact hi
      rw [idx_lt hi, ok_bind, idx_lt (show i < v'[i].length by omega), ok_bind]
      simp only
      rw [show v'[i].length - n = n by omega]
      rw [mapM_ok_of_forall (g := fun j => mul (cell v' i j) (div (ofInt 1) (cell v' i i)))]
      · rfl
      · intro j hj
        have hj := List.mem_range'_1.1 hj
        rw [idx_lt (show j < v'[i].length by omega), ok_bind, cell_eq hi (by omega), cell_eq hi (by omega)]
    rw [hrows]
    rfl

theorem rect_invRows (n : Nat) (v : List (List F)) : Rect n n (invRows n v) := by
  refine ⟨by simp [invRows], ?_⟩
  intro l hl
  simp only [invRows, List.mem_reverse, List.mem_map] at hl
  obtain ⟨i, _, rfl⟩ := hl
  simp

theorem cell_invRows {n : Nat} {v : List (List F)} {a t : Nat} (ha : a < n) (ht : t < n) :
    cell (invRows n v) a t = mul (cell v (n - 1 - a) (n + (n - 1 - t))) (div (ofInt 1) (cell v (n - 1 - a) (n - 1 - a))) := by
  conv => lhs; unfold cell
  have h1 : (invRows n v)[a]? = some (((List.range' n n).map fun j =>
      mul (cell v (n - 1 - a) j) (div (ofInt 1) (cell v (n - 1 - a) (n - 1 - a)))).reverse) := by
    unfold invRows
    rw [List.getElem?_reverse (by simpa using ha)]
    simp only [List.length_map, List.length_range, List.getElem?_map]
    rw [List.getElem?_range (by omega)]
    rfl
  rw [h1, Option.bind_some, List.getElem?_reverse (by simpa using ht)]
  simp only [List.length_map, List.length_range', List.getElem?_map]
  rw [List.getElem?_range' (by omega)]
  simp

end

section
variable {F : Type} [FArith F] {K : Type} [Field K] [LinearOrder K] [IsStrictOrderedRing K] [FloorRing K] [Exact F K]

/-- The entries of the matrix `inv` starts with. -/
def augF {n : Nat} (A : Matrix (Fin n) (Fin n) K) (i k : Nat) : K :=
  if h : i < n ∧ k < n then A ⟨i, h.1⟩ ⟨k, h.2⟩ else if k = n + i then 1 else 0

theorem leadDet_aug {n k : Nat} (A : Matrix (Fin n) (Fin n) K) (hk : k ≤ n) :
    leadDet k (augF A) = (A.submatrix (Fin.castLE hk) (Fin.castLE hk)).det := by
  unfold leadDet
  congr 1
  ext i j
  simp only [Matrix.of_apply, augF, Matrix.submatrix_apply]
  rw [dif_pos ⟨by omega, by omega⟩]
  rfl

/-- The entries of the extended matrix. -/
theorem ent_aug {n : Nat} {a : List (List F)} {A : Matrix (Fin n) (Fin n) K} (ha : MatIs a A) :
    Ent n (n + n) (augL n a) (augF A) := by
  refine ⟨rect_aug ha.rect n, fun i hi k hk => ?_⟩
  obtain ⟨h1, h2⟩ := id ha
  have hi' : i < a.length := by omega
  have hl : a[i].length = n := (h2 ⟨i, hi⟩).1
  unfold ent augL augF
  simp only [List.getElem?_map, List.getElem?_zipIdx, List.getElem?_eq_getElem hi', Option.map_some, Option.bind_some, Nat.zero_add]
  by_cases hk' : k < n
  · rw [List.getElem?_append_left (by omega), List.getElem?_eq_getElem (by omega), Option.bind_some, dif_pos ⟨hi, hk'⟩]
    exact (h2 ⟨i, hi⟩).2 ⟨k, hk'⟩
  · rw [List.getElem?_append_right (by omega), dif_neg (by omega), hl, List.getElem?_map, List.getElem?_range (by omega)]
    simp only [Option.map_some, Option.bind_some]
    by_cases hki : k = n + i
    · rw [if_pos hki, if_pos (by omega)]; exact val_one
    · rw [if_neg hki, if_neg (by omega)]; exact val_zero

/-- The left inverse read off at the end. -/
theorem inv_algebra {n : Nat} {A : Matrix (Fin n) (Fin n) K} {f g : Nat → Nat → K}
    (s1 : Steps n (n - 1) (augF A) f) (s2 : Steps n (n - 1) (revF n n f) g) (hd : ∀ i < n, g i i ≠ 0) :
    (Matrix.of fun a t : Fin n => g (n - 1 - a) (n + (n - 1 - t)) / g (n - 1 - a) (n - 1 - a)) * A = 1 := by
  have p1 := s1.forward (by omega) (fun r => ∀ k : Fin n, r k = ∑ t : Fin n, r (n + t) * A t k)
    (by
      intro r s c hr hs k
      simp only [Pi.sub_apply, Pi.smul_apply, smul_eq_mul]
      rw [hr k, hs k, Finset.mul_sum, ← Finset.sum_sub_distrib]
      refine Finset.sum_congr rfl fun t _ => by ring)
    (by
      intro a ha k
      unfold augF
      rw [dif_pos ⟨ha, k.2⟩, Finset.sum_eq_single ⟨a, ha⟩]
      · rw [dif_neg (by omega), if_pos rfl, one_mul]
      · intro t _ ht
        rw [dif_neg (by omega), if_neg (fun h => ht (Fin.ext (by simp only; omega))), zero_mul]
      · intro h; exact absurd (Finset.mem_univ _) h)
  have p2 := s2.forward (by omega) (fun r => ∀ k : Fin n, r (n - 1 - k) = ∑ t : Fin n, r (n + (n - 1 - t)) * A t k)
    (by
      intro r s c hr hs k
      simp only [Pi.sub_apply, Pi.smul_apply, smul_eq_mul]
      rw [hr k, hs k, Finset.mul_sum, ← Finset.sum_sub_distrib]
      refine Finset.sum_congr rfl fun t _ => by ring)
    (by
      intro a ha k
      have := p1 (n - 1 - a) (by omega) k
      unfold revF
      rw [if_pos (by omega), show n - 1 - (n - 1 - k.1) = k.1 by omega, this]
      refine Finset.sum_congr rfl fun t _ => ?_
      rw [if_neg (by omega), show n + (n - 1 - (n + (n - 1 - t.1) - n)) = n + t.1 by omega])
  have hz := twoPhase_diag s1 s2
  ext a k
  rw [Matrix.mul_apply]
  simp only [Matrix.of_apply]
  have hi : n - 1 - a.1 < n := by omega
  have := p2 (n - 1 - a.1) hi k
  have hs : ∑ t : Fin n, g (n - 1 - a) (n + (n - 1 - t)) / g (n - 1 - a) (n - 1 - a) * A t k =
      g (n - 1 - a) (n - 1 - k) / g (n - 1 - a) (n - 1 - a) := by
    rw [this, div_eq_mul_inv, Finset.sum_mul]
    refine Finset.sum_congr rfl fun t _ => by ring
  rw [hs, Matrix.one_apply]
  by_cases hak : a = k
  · subst hak
    rw [if_pos rfl, div_self (hd _ hi)]
  · rw [if_neg hak]
    have hne : a.1 ≠ k.1 := fun h => hak (Fin.ext h)
    rw [hz _ hi _ (by omega) (by omega), zero_div]

/-- What a finite result says about the run. -/
theorem invM_trace {n : Nat} (hn : 0 < n) {a b : List (List F)} {A B : Matrix (Fin n) (Fin n) K} (ha : MatIs a A)
    (h : invM a = .ok (.matrix b)) (hb : MatIs b B) :
    ∃ f g : Nat → Nat → K, Steps n (n - 1) (augF A) f ∧ Steps n (n - 1) (revF n n f) g ∧ (∀ i < n, g i i ≠ 0) ∧
      B = Matrix.of fun a t : Fin n => g (n - 1 - a) (n + (n - 1 - t)) / g (n - 1 - a) (n - 1 - a) := by
  rw [invM_eq hn ha.rect] at h
  split at h
  · cases h
  · obtain ⟨v, h1, h⟩ := bind_eq_ok.1 h
    obtain ⟨v', h2, h⟩ := bind_eq_ok.1 h
    injection h with h
    injection h with h
    subst h
    have hr := eliminate_rect (rect_rev (eliminate_rect (rect_aug ha.rect n) (by omega) h1) n) (by omega) h2
    have hcell : ∀ i (hi : i < n) t (ht : t < n),
        Exact.val (mul (cell v' i (n + t)) (div (ofInt 1) (cell v' i i))) = some (B ⟨n - 1 - i, by omega⟩ ⟨n - 1 - t, by omega⟩) := by
      intro i hi t ht
      have := hb.cell (i := n - 1 - i) (j := n - 1 - t) (by omega) (by omega)
      rwa [cell_invRows (by omega) (by omega), show n - 1 - (n - 1 - i) = i by omega,
        show n - 1 - (n - 1 - t) = t by omega] at this
    obtain ⟨f, g, s1, s2, e⟩ := twoPhase_trace hn (ent_aug ha) h1 h2 (fun i hi k hk hn => by
      have := hcell i hi k hk
      rw [ent_cell hr hi (by omega)] at hn
      rw [Exact.mul_none (Or.inl hn)] at this
      cases this)
    have hd : ∀ i < n, g i i ≠ 0 := by
      intro i hi h0
      have := hcell i hi 0 hn
      have hp := e.cell hi (k := i) (by omega)
      rw [h0] at hp
      rw [Exact.mul_none (Or.inr (Exact.div_none (Or.inr hp)))] at this
      cases this
    refine ⟨f, g, s1, s2, hd, ?_⟩
    ext a t
    have h3 := hcell (n - 1 - a) (by omega) (n - 1 - t) (by omega)
    have hp := e.cell (i := n - 1 - a) (k := n - 1 - a) (by omega) (by omega)
    have hq := e.cell (i := n - 1 - a) (k := n + (n - 1 - t)) (by omega) (by omega)
    have hm : Exact.val (mul (cell v' (n - 1 - a) (n + (n - 1 - t))) (div (ofInt 1) (cell v' (n - 1 - a) (n - 1 - a)))) = _ :=
      Exact.val_mul hq (Exact.val_div val_one hp (hd _ (by omega)))
    rw [hm] at h3
    injection h3 with h3
    rw [Matrix.of_apply, div_eq_mul_one_div, h3]
    congr 1 <;> exact Fin.ext (by simp only; omega)

/-- **Soundness of `inv`**: a finite result is the inverse. -/
theorem invM_sound {n : Nat} (hn : 0 < n) {a b : List (List F)} {A B : Matrix (Fin n) (Fin n) K} (ha : MatIs a A)
    (h : invM a = .ok (.matrix b)) (hb : MatIs b B) : B * A = 1 := by
  obtain ⟨f, g, s1, s2, hd, rfl⟩ := invM_trace hn ha h hb
  exact inv_algebra s1 s2 hd

/-- **When `inv` gives a finite result.** -/
theorem invM_iff {n : Nat} (hn : 0 < n) {a : List (List F)} {A : Matrix (Fin n) (Fin n) K} (ha : MatIs a A) :
    (∃ b B, invM a = .ok (.matrix b) ∧ MatIs b (B : Matrix (Fin n) (Fin n) K)) ↔
      ∀ k (hk : k ≤ n), (A.submatrix (Fin.castLE hk) (Fin.castLE hk)).det ≠ 0 := by
  constructor
  · rintro ⟨b, B, h, hb⟩ k hk
    obtain ⟨f, g, s1, s2, hd, rfl⟩ := invM_trace hn ha h hb
    rw [← leadDet_aug A hk]
    exact twoPhase_minors hn s1 s2 (hd 0 hn) k hk
  · intro hA
    rw [invM_eq hn ha.rect]
    have hdet : beq (detL n a) (ofInt 0) = false := by
      rw [Exact.beq_val (detL_val hn ha) val_zero]
      have := hA n (le_refl n)
      simpa using this
    rw [hdet]
    simp only [Bool.false_eq_true, if_false]
    obtain ⟨v, v', f, g, h1, h2, s1, s2, e2, hg⟩ := twoPhase_go (zl := "Infinite solutions") (ent_aug ha)
      (fun k hk => by rw [leadDet_aug A hk]; exact hA k hk)
    rw [h1, ok_bind, h2, ok_bind]
    refine ⟨_, Matrix.of fun a t => g (n - 1 - a) (n + (n - 1 - t)) * (1 / g (n - 1 - a) (n - 1 - a)), rfl,
      matIs_of_cell (rect_invRows n v') ?_⟩
    intro i hi j hj
    rw [cell_invRows hi hj]
    exact Exact.val_mul (e2.cell (by omega) (by omega)) (Exact.val_div val_one (e2.cell (by omega) (by omega)) (hg _ (by omega)))

/-- **`inv` fails exactly for determinant zero.** -/
theorem invM_total {n : Nat} (hn : 0 < n) {a : List (List F)} {A : Matrix (Fin n) (Fin n) K} (ha : MatIs a A) :
    (A.det = 0 → ∃ e, invM a = .err e) ∧ (A.det ≠ 0 → ∃ b, invM a = .ok (.matrix b)) := by
  rw [invM_eq hn ha.rect, Exact.beq_val (detL_val hn ha) val_zero]
  constructor
  · intro h
    exact ⟨_, by rw [if_pos (by simpa using h)]⟩
  · intro h
    rw [if_neg (by simpa using h)]
    obtain ⟨v, v', h1, h2⟩ := twoPhase_total (zl := "Infinite solutions") hn hn (ent_aug ha)
      (by rw [leadDet_aug A (le_refl n)]; simpa using h)
    rw [h1, ok_bind, h2]
    exact ⟨_, rfl⟩

end

/-! ## Linear systems -/

section
variable {F : Type} [FNum F] {K : Type} [Field K] [LinearOrder K] [IsStrictOrderedRing K] [FloorRing K] [Exact F K]

/-- The last stage of `gauss_algorithm`. -/
def gaussRes (n : Nat) (v : List (List F)) : List F :=
  ((List.range n).map fun i => div (cell v i n) (cell v i i)).reverse

theorem gauss_eq {n : Nat} (hn : 0 < n) {u : List (List F)} (hu : Rect n (n + 1) u) :
    gaussAlgorithm u = eliminate .infiniteSolutions u >>= fun v =>
      eliminate .infiniteSolutions ((v.reverse.map List.reverse).map (rotate 1)) >>= fun v => .ok (.vector (gaussRes n v)) := by
  unfold gaussAlgorithm
  have h0 : 0 < u.length := by rw [hu.1]; exact hn
  have hl0 : u[0].length = n + 1 := hu.2 _ (List.getElem_mem _)
  rw [idx_lt h0, ok_bind, if_neg (by rw [hu.1, hl0]; simp)]
  refine bind_congr fun v hv => ?_
  have hv := (eliminate_post _ hu (by omega)).of_ok hv
  refine bind_congr fun v' hv' => ?_
  have hv' := (eliminate_post _ (rect_rev hv 1) (by omega)).of_ok hv'
  rw [mapM_ok_of_forall (g := fun i => div (cell v' i n) (cell v' i i))]
  · rw [hv'.1]; rfl
  · intro i hi
    have hi : i < v'.length := List.mem_range.1 hi
    have hl : v'[i].length = n + 1 := hv'.2 _ (List.getElem_mem _)
    have hiv : i < n := by rw [← hv'.1]; exact hi
    rw [idx_lt hi, ok_bind, idx_lt (show v'[i].length - 1 < v'[i].length by omega), ok_bind,
      idx_lt (show i < v'[i].length by omega), ok_bind, cell_eq hi (by omega), cell_eq hi (by omega)]
    simp only [hl, Nat.add_sub_cancel]

/-- The entries of the extended matrix of a system. -/
def sysF {n : Nat} (M : Matrix (Fin n) (Fin (n + 1)) K) (i k : Nat) : K :=
  if h : i < n ∧ k < n + 1 then M ⟨i, h.1⟩ ⟨k, h.2⟩ else 0

theorem ent_sys {n : Nat} {u : List (List F)} {M : Matrix (Fin n) (Fin (n + 1)) K} (hu : MatIs u M) : Ent n (n + 1) u (sysF M) := by
  refine ⟨hu.rect, fun i hi k hk => ?_⟩
  rw [ent_cell hu.rect hi hk, hu.cell hi hk]
  unfold sysF
  rw [dif_pos ⟨hi, hk⟩]

theorem leadDet_sys {n k : Nat} (M : Matrix (Fin n) (Fin (n + 1)) K) (hk : k ≤ n) :
    leadDet k (sysF M) = (M.submatrix (Fin.castLE hk) (Fin.castLE (Nat.le_succ_of_le hk))).det := by
  unfold leadDet
  congr 1
  ext i j
  simp only [Matrix.of_apply, sysF, Matrix.submatrix_apply]
  rw [dif_pos ⟨by omega, by omega⟩]
  rfl

theorem gaussRes_get {n : Nat} (v : List (List F)) {a : Nat} (ha : a < n) :
    (gaussRes n v)[a]? = some (div (cell v (n - 1 - a) n) (cell v (n - 1 - a) (n - 1 - a))) := by
  unfold gaussRes
  rw [List.getElem?_reverse (by simpa using ha)]
  simp only [List.length_map, List.length_range, List.getElem?_map]
  rw [List.getElem?_range (by omega)]
  rfl

theorem gauss_trace {n : Nat} (hn : 0 < n) {u : List (List F)} {x : List F} {M : Matrix (Fin n) (Fin (n + 1)) K} {X : Fin n → K}
    (hu : MatIs u M) (h : gaussAlgorithm u = .ok (.vector x)) (hx : VecIs x X) :
    ∃ f g : Nat → Nat → K, Steps n (n - 1) (sysF M) f ∧ Steps n (n - 1) (revF n 1 f) g ∧ (∀ i < n, g i i ≠ 0) ∧
      X = fun a : Fin n => g (n - 1 - a) n / g (n - 1 - a) (n - 1 - a) := by
  rw [gauss_eq hn hu.rect] at h
  obtain ⟨v, h1, h⟩ := bind_eq_ok.1 h
  obtain ⟨v', h2, h⟩ := bind_eq_ok.1 h
  injection h with h
  injection h with h
  subst h
  have hr := eliminate_rect (rect_rev (eliminate_rect hu.rect (by omega) h1) 1) (by omega) h2
  have hcell : ∀ i (hi : i < n), Exact.val (div (cell v' i n) (cell v' i i)) = some (X ⟨n - 1 - i, by omega⟩) := by
    intro i hi
    obtain ⟨hl, hx⟩ := hx
    have := hx ⟨n - 1 - i, by omega⟩
    have hg := gaussRes_get v' (a := n - 1 - i) (n := n) (by omega)
    rw [List.getElem?_eq_getElem (by rw [hl]; omega)] at hg
    injection hg with hg
    rw [hg] at this
    rwa [show n - 1 - (n - 1 - i) = i by omega] at this
  obtain ⟨f, g, s1, s2, e⟩ := twoPhase_trace (by omega) (ent_sys hu) h1 h2 (fun i hi k hk hn => by
    have := hcell i hi
    have hk0 : k = 0 := by omega
    subst hk0
    rw [ent_cell hr hi (by omega), Nat.add_zero] at hn
    rw [Exact.div_none (Or.inl hn)] at this
    cases this)
  have hd : ∀ i < n, g i i ≠ 0 := by
    intro i hi h0
    have := hcell i hi
    have hp := e.cell hi (k := i) (by omega)
    rw [h0] at hp
    rw [Exact.div_none (Or.inr hp)] at this
    cases this
  refine ⟨f, g, s1, s2, hd, ?_⟩
  funext a
  have h3 := hcell (n - 1 - a) (by omega)
  have hp := e.cell (i := n - 1 - a) (k := n - 1 - a) (by omega) (by omega)
  have hq := e.cell (i := n - 1 - a) (k := n) (by omega) (by omega)
  rw [Exact.val_div hq hp (hd _ (by omega))] at h3
  injection h3 with h3
  rw [h3]
  congr 1
  exact Fin.ext (by simp only; omega)

/-- **Soundness of the elimination.** -/
theorem gauss_sound {n : Nat} (hn : 0 < n) {u : List (List F)} {x : List F} {M : Matrix (Fin n) (Fin (n + 1)) K} {X : Fin n → K}
    (hu : MatIs u M) (h : gaussAlgorithm u = .ok (.vector x)) (hx : VecIs x X) (i : Fin n) :
    ∑ k : Fin n, M i k.castSucc * X k = M i (Fin.last n) := by
  obtain ⟨f, g, s1, s2, hd, hX⟩ := gauss_trace hn hu h hx
  have hz := twoPhase_diag s1 s2
  have p2 := s2.backward (by omega) (fun r => ∑ k : Fin n, r (n - 1 - k) * X k = r n)
    (by
      intro r s c hr hs
      simp only [Pi.add_apply, Pi.smul_apply, smul_eq_mul]
      rw [← hr, ← hs, Finset.mul_sum, ← Finset.sum_add_distrib]
      refine Finset.sum_congr rfl fun t _ => by ring)
    (by
      intro a ha
      rw [Finset.sum_eq_single ⟨n - 1 - a, by omega⟩]
      · rw [hX]
        simp only
        rw [show n - 1 - (n - 1 - a) = a by omega]
        have := hd a ha
        field_simp
      · intro k _ hk
        rw [hz a ha _ (by omega) (fun h => hk (Fin.ext (by simp only; omega))), zero_mul]
      · intro h; exact absurd (Finset.mem_univ _) h)
  have p1 := s1.backward (by omega) (fun r => ∑ k : Fin n, r k * X k = r n)
    (by
      intro r s c hr hs
      simp only [Pi.add_apply, Pi.smul_apply, smul_eq_mul]
      rw [← hr, ← hs, Finset.mul_sum, ← Finset.sum_add_distrib]
      refine Finset.sum_congr rfl fun t _ => by ring)
    (by
      intro a ha
      have := p2 (n - 1 - a) (by omega)
      unfold revF at this
      simp only [show n - 1 - (n - 1 - a) = a by omega, if_neg (show ¬ n < n by omega)] at this
      rw [show n + (1 - 1 - (n - n)) = n by omega] at this
      rw [← this]
      refine Finset.sum_congr rfl fun t _ => ?_
      rw [if_pos (by omega), show n - 1 - (n - 1 - t.1) = t.1 by omega])
  have := p1 i i.2
  unfold sysF at this
  rw [dif_pos ⟨i.2, by omega⟩] at this
  rw [show M i (Fin.last n) = _ from this.symm]
  refine Finset.sum_congr rfl fun t _ => ?_
  rw [dif_pos ⟨i.2, by omega⟩]
  rfl

/-- **When the elimination gives a finite result.** -/
theorem gauss_iff {n : Nat} (hn : 0 < n) {u : List (List F)} {M : Matrix (Fin n) (Fin (n + 1)) K} (hu : MatIs u M) :
    (∃ x X, gaussAlgorithm u = .ok (.vector x) ∧ VecIs x (X : Fin n → K)) ↔
      ∀ k (hk : k ≤ n), (M.submatrix (Fin.castLE hk) (Fin.castLE (Nat.le_succ_of_le hk))).det ≠ 0 := by
  constructor
  · rintro ⟨b, B, h, hb⟩ k hk
    obtain ⟨f, g, s1, s2, hd, rfl⟩ := gauss_trace hn hu h hb
    rw [← leadDet_sys M hk]
    exact twoPhase_minors hn s1 s2 (hd 0 hn) k hk
  · intro hA
    rw [gauss_eq hn hu.rect]
    obtain ⟨v, v', f, g, h1, h2, s1, s2, e2, hg⟩ := twoPhase_go (zl := EvalError.infiniteSolutions) (ent_sys hu)
      (fun k hk => by rw [leadDet_sys M hk]; exact hA k hk)
    rw [h1, ok_bind, h2, ok_bind]
    refine ⟨_, fun a => g (n - 1 - a) n / g (n - 1 - a) (n - 1 - a), rfl, by simp [gaussRes], ?_⟩
    intro a
    have := gaussRes_get v' (a := a) (n := n) a.2
    rw [List.getElem?_eq_getElem (by simp [gaussRes])] at this
    injection this with this
    rw [this]
    exact Exact.val_div (e2.cell (by omega) (by omega)) (e2.cell (by omega) (by omega)) (hg _ (by omega))

/-- **Regular systems never give an error.** -/
theorem gauss_total {n : Nat} (hn : 0 < n) {u : List (List F)} {M : Matrix (Fin n) (Fin (n + 1)) K} (hu : MatIs u M)
    (hd : (M.submatrix id Fin.castSucc).det ≠ 0) : ∃ x, gaussAlgorithm u = .ok (.vector x) := by
  rw [gauss_eq hn hu.rect]
  obtain ⟨v, v', h1, h2⟩ := twoPhase_total (zl := EvalError.infiniteSolutions) hn (by omega) (ent_sys hu)
    (by rw [leadDet_sys M (le_refl n)]; exact hd)
  rw [h1, ok_bind, h2]
  exact ⟨_, rfl⟩

end
end MUL
