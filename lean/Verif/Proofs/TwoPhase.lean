import Verif.Proofs.Elim
import Mathlib.LinearAlgebra.Matrix.Block
/-!
# Elimination, reversal, elimination: when it goes through and what it computes

`inv` works on `n` columns extended by `n`, linear systems on `n` columns extended by one; both are the case `c = n`
and `c = 1` of a matrix with `n` rows and `n + c` columns.
-/

set_option linter.unusedSectionVars false

namespace MUL
open Out FArith Spec

section
variable {F : Type} [FArith F]

/-- The number in row `i`, column `k` (`0` if there is none). -/
def cell (v : List (List F)) (i k : Nat) : F := (v[i]?.bind (·[k]?)).getD (ofInt 0)

theorem cell_eq {v : List (List F)} {i k : Nat} (hi : i < v.length) (hk : k < v[i].length) : cell v i k = v[i][k] := by
  simp [cell, hi, hk]

end

section
variable {F : Type} [FArith F] {K : Type} [Field K] [LinearOrder K] [IsStrictOrderedRing K] [FloorRing K] [Exact F K]

theorem ent_cell {n w : Nat} {v : List (List F)} (hv : Rect n w v) {i k : Nat} (hi : i < n) (hk : k < w) :
    (ent v i k : Option K) = Exact.val (cell v i k) := by
  have hi' : i < v.length := by rw [hv.1]; exact hi
  have hl : v[i].length = w := hv.2 _ (List.getElem_mem _)
  simp [ent, cell, hi', hl, hk]

theorem MatIs.cell {r c : Nat} {m : List (List F)} {A : Matrix (Fin r) (Fin c) K} (h : MatIs m A) {i j : Nat} (hi : i < r)
    (hj : j < c) : Exact.val (cell m i j) = some (A ⟨i, hi⟩ ⟨j, hj⟩) := by
  obtain ⟨h1, h2, h3⟩ := h.entry hi hj
  rw [cell_eq h1 h2, h3]

theorem matIs_of_cell {r c : Nat} {m : List (List F)} {A : Matrix (Fin r) (Fin c) K} (h : Rect r c m)
    (hc : ∀ i (hi : i < r) j (hj : j < c), Exact.val (MUL.cell m i j) = some (A ⟨i, hi⟩ ⟨j, hj⟩)) : MatIs m A := by
  refine ⟨h.1, fun i => ⟨h.2 _ (List.getElem_mem _), fun j => ?_⟩⟩
  have := hc i.1 i.2 j.1 j.2
  have hi : i.1 < m.length := by rw [h.1]; exact i.2
  have hl : m[i.1].length = c := h.2 _ (List.getElem_mem _)
  rwa [cell_eq hi (by omega)] at this

theorem Ent.cell {n w : Nat} {v : List (List F)} {f : Nat → Nat → K} (h : Ent n w v f) {i k : Nat} (hi : i < n) (hk : k < w) :
    Exact.val (MUL.cell v i k) = some (f i k) := by
  rw [← ent_cell h.1 hi hk]; exact h.2 i hi k hk

theorem elimStep_go {ε : Type} {zl : ε} {n w : Nat} {v : List (List F)} {f : Nat → Nat → K} (hv : Ent n w v f) {i j : Nat}
    (hi : i < n) (hj : j < n) (hw : i < w) (hp : f i i ≠ 0)
    (hz : ∃ k, i ≤ k ∧ k < w ∧ f j k - f j i / f i i * f i k ≠ 0) :
    ∃ v', elimStep zl v (i, j) = .ok v' ∧
      Ent n w v' (fun a k => if a = j ∧ i ≤ k then f a k - f a i / f i i * f i k else f a k) := by
  obtain ⟨hi', hj', hwi, hwj, he⟩ := elimStep_eq zl hv.1 hi hj hw
  have hli : v[i].length = w := hv.1.2 _ (List.getElem_mem _)
  have hlj : v[j].length = w := hv.1.2 _ (List.getElem_mem _)
  have ev : ∀ a (ha : a < n) k (hk : k < w), Exact.val (cell v a k) = some (f a k) := fun a ha k hk => hv.cell ha hk
  have hrow : ∀ k, i ≤ k → k < w → ∃ x, (elimRow i v[i] v[j] (div v[i][i] v[j][i]))[k]? = some x ∧
      Exact.val x = some (f j k - f j i / f i i * f i k) := by
    intro k hk hkw
    refine ⟨sub v[j][k] (div v[i][k] (div v[i][i] v[j][i])), ?_, ?_⟩
    · simp only [elimRow]
      rw [List.getElem?_zipWith]
      simp only [List.getElem?_zipIdx, List.getElem?_eq_getElem (show k < v[j].length by omega),
        List.getElem?_eq_getElem (show k < v[i].length by omega), Option.map_some]
      simp only [Nat.zero_add]
      rw [if_neg (by omega)]
    · have h1 := ev i hi i hw
      have h2 := ev j hj i hw
      have h3 := ev j hj k hkw
      have h4 := ev i hi k hkw
      rw [cell_eq hi' (by omega)] at h1 h4
      rw [cell_eq hj' (by omega)] at h2 h3
      exact elim_val h1 h2 h3 h4 hp
  have hall : ((elimRow i v[i] v[j] (div v[i][i] v[j][i])).drop i).all (fun x => beq x (ofInt 0)) = false := by
    rw [List.all_eq_false]
    obtain ⟨k, hk, hkw, hne⟩ := hz
    obtain ⟨x, hx, hxv⟩ := hrow k hk hkw
    refine ⟨x, ?_, ?_⟩
    · apply List.mem_of_getElem? (i := k - i)
      rw [List.getElem?_drop, show i + (k - i) = k by omega, hx]
    · rw [Exact.beq_val hxv val_zero]
      simpa using hne
  rw [hall] at he
  simp only [Bool.false_eq_true, if_false] at he
  refine ⟨_, he, elimStep_rect hv.1 hi hj hw he, ?_⟩
  obtain ⟨p, q, hp', hq', h1, h2⟩ := elimStep_ent hv.1 hi hj hw he
  intro a ha k hk
  by_cases haj : a = j
  · subst haj
    obtain ⟨x, y, hx, hy, hxy⟩ := h2 k hk
    unfold ent
    show _ = some (if a = a ∧ i ≤ k then f a k - f a i / f i i * f i k else f a k)
    by_cases hik : i ≤ k
    · rw [if_pos (c := a = a ∧ i ≤ k) ⟨rfl, hik⟩, List.getElem?_set_self hj']
      obtain ⟨x, hx, hxv⟩ := hrow k hik hk
      rw [Option.bind_some, hx]
      exact hxv
    · rw [if_neg (c := a = a ∧ i ≤ k) (fun h => hik h.2), hxy, if_pos (by omega)]
      have := hv.2 a ha k hk
      unfold ent at this
      rwa [hx] at this
  · show _ = some (if a = j ∧ i ≤ k then f a k - f a i / f i i * f i k else f a k)
    rw [if_neg (c := a = j ∧ i ≤ k) (fun h => haj h.1)]
    unfold ent
    rw [h1 a haj]
    exact hv.2 a ha k hk

theorem innerLoop_go {ε : Type} {zl : ε} {n w : Nat} {v : List (List F)} {f : Nat → Nat → K} (hv : Ent n w v f) {i t : Nat}
    (ht : i + 1 + t ≤ n) (hw : i < w) (hp : f i i ≠ 0)
    (hz : ∀ j, i < j → j < i + 1 + t → ∃ k, i ≤ k ∧ k < w ∧ f j k - f j i / f i i * f i k ≠ 0) :
    ∃ v', innerLoop zl i t v = .ok v' ∧ Ent n w v' (outerT i t f) := by
  induction t with
  | zero =>
    refine ⟨v, rfl, hv.1, ?_⟩
    intro a ha k hk
    rw [hv.2 a ha k hk, outerT, if_neg (by omega)]
  | succ t ih =>
    obtain ⟨u, hu, h2⟩ := ih (by omega) (fun j h1 h2 => hz j h1 (by omega))
    have hik : ∀ k, outerT i t f i k = f i k := fun k => by rw [outerT, if_neg (by omega)]
    have hj : ∀ k, outerT i t f (i + 1 + t) k = f (i + 1 + t) k := fun k => by rw [outerT, if_neg (by omega)]
    obtain ⟨v', h3, h4⟩ := elimStep_go (zl := zl) h2 (i := i) (j := i + 1 + t) (by omega) (by omega) hw (by rw [hik]; exact hp)
      (by simpa only [hik, hj] using hz (i + 1 + t) (by omega) (by omega))
    refine ⟨v', by rw [innerLoop_succ, hu]; exact h3, h4.1, ?_⟩
    intro a ha k hk
    rw [h4.2 a ha k hk]
    congr 1
    show (if a = i + 1 + t ∧ i ≤ k then outerT i t f a k - outerT i t f a i / outerT i t f i i * outerT i t f i k
      else outerT i t f a k) = _
    by_cases haj : a = i + 1 + t
    · subst haj
      by_cases hk' : i ≤ k
      · rw [if_pos ⟨rfl, hk'⟩, hj, hj, hik, hik]
        unfold outerT
        rw [if_pos (by omega)]
      · rw [if_neg (fun h => hk' h.2), hj]
        unfold outerT
        rw [if_neg (by omega)]
    · rw [if_neg (fun h => haj h.1)]
      unfold outerT
      by_cases hc : i < a ∧ a < i + 1 + t ∧ i ≤ k
      · rw [if_pos hc, if_pos (by omega)]
      · rw [if_neg hc, if_neg (by omega)]

theorem outerLoop_go {ε : Type} {zl : ε} {n w m : Nat} {v : List (List F)} {f : Nat → Nat → K} (hv : Ent n w v f)
    (hm : m ≤ n - 1) (hw : n ≤ w)
    (hgo : ∀ m' f', m' < m → Steps n m' f f' → f' m' m' ≠ 0 ∧
      ∀ j, m' < j → j < n → ∃ k, m' ≤ k ∧ k < w ∧ outerT m' (n - (m' + 1)) f' j k ≠ 0) :
    ∃ v' f', outerLoop zl n m v = .ok v' ∧ Steps n m f f' ∧ Ent n w v' f' := by
  induction m with
  | zero => exact ⟨v, f, rfl, .zero f, hv⟩
  | succ m ih =>
    obtain ⟨u, f', hu, h1, h2⟩ := ih (by omega) (fun m' f' hm' hs => hgo m' f' (by omega) hs)
    obtain ⟨hp, hz⟩ := hgo m f' (by omega) h1
    obtain ⟨v', h3, h4⟩ := innerLoop_go (zl := zl) h2 (i := m) (t := n - (m + 1)) (by omega) (by omega) hp (by
      intro j hj hjn
      obtain ⟨k, hk, hkw, hne⟩ := hz j hj (by omega)
      refine ⟨k, hk, hkw, ?_⟩
      unfold outerT at hne
      rwa [if_pos (by omega)] at hne)
    exact ⟨v', _, by rw [outerLoop_succ, hu]; exact h3, .succ m f f' h1 hp, h4⟩

theorem eliminate_go {ε : Type} {zl : ε} {n w : Nat} {v : List (List F)} {f : Nat → Nat → K} (hv : Ent n w v f) (hw : n ≤ w)
    (hgo : ∀ m f', m < n - 1 → Steps n m f f' → f' m m ≠ 0 ∧
      ∀ j, m < j → j < n → ∃ k, m ≤ k ∧ k < w ∧ outerT m (n - (m + 1)) f' j k ≠ 0) :
    ∃ v' f', eliminate zl v = .ok v' ∧ Steps n (n - 1) f f' ∧ Ent n w v' f' := by
  rw [eliminate_eq, hv.1.1]
  exact outerLoop_go hv (le_refl _) hw hgo

/-! ## Leading minors -/

/-- The leading `k × k` minor. -/
def leadDet (k : Nat) (f : Nat → Nat → K) : K := (Matrix.of fun i j : Fin k => f i j).det

theorem leadDet_outer {n m k : Nat} {f : Nat → Nat → K} (hu : ∀ c < m, ∀ a < n, c < a → f a c = 0) (hm : m < n) (hk : k ≤ n) :
    leadDet k (outerT m (n - (m + 1)) f) = leadDet k f := by
  unfold leadDet
  by_cases hmk : m < k
  · refine Matrix.det_eq_of_forall_row_eq_smul_add_const (fun i => if m < i.1 then -(f i m / f m m) else 0) ⟨m, hmk⟩ (by simp) ?_
    intro i j
    simp only [Matrix.of_apply]
    rw [outer_row hu hm]
    by_cases hi : m < i.1
    · rw [if_pos ⟨hi, by omega⟩, if_pos hi]
      simp only [Pi.sub_apply, Pi.smul_apply, smul_eq_mul]
      ring
    · rw [if_neg (fun h => hi h.1), if_neg hi]; ring
  · congr 1
    ext i j
    simp only [Matrix.of_apply]
    rw [outer_row hu hm, if_neg (by omega)]

theorem Steps.leadDet {n m k : Nat} {f f' : Nat → Nat → K} (h : Steps n m f f') (hm : m ≤ n) (hk : k ≤ n) :
    leadDet k f' = leadDet k f := by
  induction h with
  | zero => rfl
  | succ m f f' h hp ih => rw [leadDet_outer h.upper (by omega) hk, ih (by omega)]

theorem Steps.leadDet_prod {n m k : Nat} {f f' : Nat → Nat → K} (h : Steps n m f f') (hm : m ≤ n) (hk : k ≤ m + 1) (hkn : k ≤ n) :
    MUL.leadDet k f = ∏ i : Fin k, f' i i := by
  rw [← h.leadDet hm hkn]
  unfold MUL.leadDet
  rw [Matrix.det_of_isUpperTriangular]
  · rfl
  · intro i j hij
    exact h.upper _ (by have : j.1 < i.1 := hij; omega) _ (by omega) hij

/-- The pivot of step `m` vanishes exactly if the leading minor of size `m+1` does. -/
theorem Steps.pivot_iff {n m : Nat} {f f' : Nat → Nat → K} (h : Steps n m f f') (hm : m < n) :
    f' m m ≠ 0 ↔ MUL.leadDet (m + 1) f ≠ 0 := by
  rw [h.leadDet_prod (by omega) (le_refl _) (by omega), Finset.prod_ne_zero_iff]
  constructor
  · intro hp i _
    by_cases hi : i.1 = m
    · rw [hi]; exact hp
    · exact h.pivot _ (by omega)
  · intro hp
    exact hp ⟨m, by omega⟩ (Finset.mem_univ _)

/-! ## The two phases -/

/-- The matrix read backwards, in both blocks. -/
def revF (n c : Nat) (f : Nat → Nat → K) : Nat → Nat → K := fun i k =>
  f (n - 1 - i) (if k < n then n - 1 - k else n + (c - 1 - (k - n)))

theorem rect_rev {n w : Nat} {v : List (List F)} (h : Rect n w v) (c : Nat) : Rect n w ((v.reverse.map List.reverse).map (rotate c)) :=
  rect_rotate (rect_reverse h) c

theorem ent_rev {n c : Nat} {v : List (List F)} (h : Rect n (n + c) v) {i k : Nat} (hi : i < n) (hk : k < n + c) :
    (ent ((v.reverse.map List.reverse).map (rotate c)) i k : Option K) =
      ent v (n - 1 - i) (if k < n then n - 1 - k else n + (c - 1 - (k - n))) := by
  rw [ent_reverse_rotate h (by omega) hi hk]
  congr 1
  by_cases hkn : k < n
  · rw [if_pos (by omega), if_pos hkn]; omega
  · rw [if_neg (by omega), if_neg hkn]; omega

theorem Ent.reverse {n c : Nat} {v : List (List F)} {f : Nat → Nat → K} (h : Ent n (n + c) v f) :
    Ent n (n + c) ((v.reverse.map List.reverse).map (rotate c)) (revF n c f) := by
  refine ⟨rect_rev h.1 c, fun i hi k hk => ?_⟩
  rw [ent_rev h.1 hi hk, h.2 _ (by omega) _ (by split <;> omega)]
  rfl

/-- If everything in the extension is finite at the end then the two eliminations were exact. -/
theorem twoPhase_trace {ε : Type} {zl : ε} {n c : Nat} (hc : 0 < c) {u v v' : List (List F)} {f₀ : Nat → Nat → K}
    (hu : Ent n (n + c) u f₀) (h1 : eliminate zl u = .ok v)
    (h2 : eliminate zl ((v.reverse.map List.reverse).map (rotate c)) = .ok v')
    (hf : ∀ i < n, ∀ k < c, (ent v' i (n + k) : Option K) ≠ none) :
    ∃ f g : Nat → Nat → K, Steps n (n - 1) f₀ f ∧ Steps n (n - 1) (revF n c f) g ∧ Ent n (n + c) v' g := by
  have hr1 := eliminate_rect hu.1 (by omega) h1
  have hlast : ∀ i < n, (ent v i (n + c - 1) : Option K) ≠ none := by
    intro i hi
    have := eliminate_back (rect_rev hr1 c) (by omega) h2 (a := n - 1 - i) (k := n + 0) (by omega) (hf _ (by omega) 0 (by omega))
    rw [ent_rev hr1 (by omega) (by omega), if_neg (by omega)] at this
    rw [show n - 1 - (n - 1 - i) = i by omega, show n + (c - 1 - (n + 0 - n)) = n + c - 1 by omega] at this
    exact this
  obtain ⟨f, s1, e1⟩ := eliminate_exact hu (by omega) h1 hlast
  obtain ⟨g, s2, e2⟩ := eliminate_exact e1.reverse (by omega) h2 (fun i hi => by
    have := hf i hi (c - 1) (by omega)
    rwa [show n + (c - 1) = n + c - 1 by omega] at this)
  exact ⟨f, g, s1, s2, e2⟩

theorem revF_low {n c : Nat} {f₀ f : Nat → Nat → K} (s : Steps n (n - 1) f₀ f) :
    ∀ a < n, ∀ k < n, a < k → revF n c f a k = 0 := by
  intro a ha k hk hak
  unfold revF
  rw [if_pos hk]
  exact s.upper _ (by omega) _ (by omega) (by omega)

theorem revF_diag {n c : Nat} {f₀ f : Nat → Nat → K} (s : Steps n (n - 1) f₀ f) (hd : leadDet n f₀ ≠ 0) :
    ∀ a < n, revF n c f a a ≠ 0 := by
  intro a ha
  unfold revF
  rw [if_pos ha]
  by_cases h0 : a = 0
  · subst h0
    rw [Nat.sub_zero, s.pivot_iff (by omega), show n - 1 + 1 = n by omega]
    exact hd
  · exact s.pivot _ (by omega)

/-- After the second phase only the diagonal is left. -/
theorem twoPhase_diag {n c : Nat} {f₀ f g : Nat → Nat → K} (s1 : Steps n (n - 1) f₀ f) (s2 : Steps n (n - 1) (revF n c f) g) :
    ∀ a < n, ∀ k < n, a ≠ k → g a k = 0 := by
  intro a ha k hk hak
  rcases Nat.lt_or_gt_of_ne hak with h | h
  · exact s2.lower (by omega) (revF_low s1) a ha k hk h
  · exact s2.upper k (by omega) a ha h

/-- All pivots were non-zero, hence all leading minors. -/
theorem twoPhase_minors {n c : Nat} (hn : 0 < n) {f₀ f g : Nat → Nat → K} (s1 : Steps n (n - 1) f₀ f)
    (s2 : Steps n (n - 1) (revF n c f) g) (hd : g 0 0 ≠ 0) : ∀ k ≤ n, leadDet k f₀ ≠ 0 := by
  rw [s2.diag_of_lower (by omega) (revF_low s1) 0 hn] at hd
  unfold revF at hd
  rw [if_pos hn] at hd
  intro k hk
  rw [s1.leadDet_prod (by omega) (by omega) hk, Finset.prod_ne_zero_iff]
  intro i _
  by_cases hi : i.1 = n - 1
  · rw [hi]; simpa using hd
  · exact s1.pivot _ (by omega)

/-! ### Rows never vanish -/

/-- Evaluate a row against column `b` of `N`. -/
def pair {n : Nat} (N : Matrix (Fin n) (Fin n) K) (b : Fin n) (r : Nat → K) : K := ∑ k : Fin n, r k * N k b

theorem pair_sub {n : Nat} (N : Matrix (Fin n) (Fin n) K) (b : Fin n) (r s : Nat → K) (c : K) :
    pair N b (r - c • s) = pair N b r - c * pair N b s := by
  unfold pair
  rw [Finset.mul_sum, ← Finset.sum_sub_distrib]
  refine Finset.sum_congr rfl fun t _ => ?_
  simp only [Pi.sub_apply, Pi.smul_apply, smul_eq_mul]
  ring

theorem pair_zero {n : Nat} (N : Matrix (Fin n) (Fin n) K) (b : Fin n) (r : Nat → K) (h : ∀ k < n, r k = 0) : pair N b r = 0 := by
  unfold pair
  refine Finset.sum_eq_zero fun t _ => ?_
  rw [h t t.2, zero_mul]

/-- Row `a` is dual to column `a` of `N` and annihilates the later columns. -/
def DualAt {n : Nat} (N : Matrix (Fin n) (Fin n) K) (a : Nat) (r : Nat → K) : Prop :=
  ∀ b : Fin n, a ≤ b → pair N b r = if b.1 = a then 1 else 0

theorem dual_of_det {n : Nat} {f : Nat → Nat → K} (h : leadDet n f ≠ 0) :
    ∃ N : Matrix (Fin n) (Fin n) K, ∀ a < n, DualAt N a (f a) := by
  have hu : IsUnit (Matrix.of fun i j : Fin n => f i j).det := (Ne.isUnit h)
  refine ⟨(Matrix.of fun i j : Fin n => f i j)⁻¹, fun a ha b hb => ?_⟩
  have := congrFun (congrFun (Matrix.mul_nonsing_inv _ hu) ⟨a, ha⟩) b
  rw [Matrix.mul_apply, Matrix.one_apply] at this
  unfold pair
  simp only [Matrix.of_apply] at this
  rw [this]
  by_cases hab : b.1 = a
  · rw [if_pos hab, if_pos (Fin.ext hab.symm)]
  · rw [if_neg hab, if_neg (fun h => hab (by rw [← h]))]

theorem DualAt.step {n : Nat} {N : Matrix (Fin n) (Fin n) K} {i j : Nat} (hij : i < j) {r s : Nat → K}
    (hr : DualAt N j r) (hs : DualAt N i s) (c : K) : DualAt N j (r - c • s) := by
  intro b hb
  rw [pair_sub, hr b hb, hs b (by omega), if_neg (c := b.1 = i) (by omega)]
  ring

theorem DualAt.ne_zero {n : Nat} {N : Matrix (Fin n) (Fin n) K} {j : Nat} (hj : j < n) {r : Nat → K} (hr : DualAt N j r)
    (h : ∀ k < n, r k = 0) : False := by
  have := hr ⟨j, hj⟩ (le_refl _)
  rw [pair_zero N _ r h, if_pos rfl] at this
  exact zero_ne_one this

/-- Every row whose last entry is finite is exact, starts with `z a` zeros, and is dual. -/
def Clean {n : Nat} (w : Nat) (N : Matrix (Fin n) (Fin n) K) (z : Nat → Nat) (v : List (List F)) : Prop :=
  Rect n w v ∧ ∀ a < n, (ent v a (w - 1) : Option K) ≠ none →
    ∃ r : Nat → K, (∀ k < w, ent v a k = some (r k)) ∧ (∀ k < z a, r k = 0) ∧ DualAt N a r

theorem sub_beq_zero {x y : F} (h : beq (sub x y) (ofInt 0) = true) : Exact.val (sub x y) = some (0 : K) := by
  cases hv : (Exact.val (sub x y) : Option K) with
  | none => rw [Exact.beq_none_left hv val_zero] at h; cases h
  | some s =>
    rw [Exact.beq_val hv val_zero] at h
    rw [of_decide_eq_true h]

theorem elim_clean {p q x y : F} {p' q' : K} (hp : Exact.val p = some p') (hq : Exact.val q = some q')
    (h : (Exact.val (sub x (div y (div p q))) : Option K) ≠ none) : p' ≠ 0 := by
  rintro rfl
  exact h (elim_zero hp hq)

/-- The facts both outcomes of a step share. -/
theorem clean_step {n w : Nat} (hnw : n ≤ w) {N : Matrix (Fin n) (Fin n) K} {z : Nat → Nat} {v : List (List F)} (hv : Clean w N z v)
    {i j : Nat} (hij : i < j) (hj : j < n) (hzi : z i = i) (hzj : z j = i)
    (hlast : (Exact.val (sub (cell v j (w - 1)) (div (cell v i (w - 1)) (div (cell v i i) (cell v j i)))) : Option K) ≠ none) :
    ∃ r : Nat → K, (∀ k < w, i ≤ k → Exact.val (sub (cell v j k) (div (cell v i k) (div (cell v i i) (cell v j i)))) = some (r k)) ∧
      (∀ k < w, k < i → ent v j k = some (r k)) ∧ (∀ k < i + 1, r k = 0) ∧ DualAt N j r := by
  have hx : (ent v j (w - 1) : Option K) ≠ none := by
    rw [ent_cell hv.1 hj (by omega)]
    intro h
    exact hlast (Exact.sub_none (Or.inl h))
  have hy : (ent v i (w - 1) : Option K) ≠ none := by
    rw [ent_cell hv.1 (by omega) (by omega)]
    intro h
    exact hlast (Exact.sub_none (Or.inr (Exact.div_none (Or.inl h))))
  obtain ⟨r, hr, hrz, hrd⟩ := hv.2 j hj hx
  obtain ⟨s, hs, hsz, hsd⟩ := hv.2 i (by omega) hy
  have cj : ∀ k < w, Exact.val (cell v j k) = some (r k) := fun k hk => by rw [← ent_cell hv.1 hj hk]; exact hr k hk
  have ci : ∀ k < w, Exact.val (cell v i k) = some (s k) := fun k hk => by rw [← ent_cell hv.1 (by omega) hk]; exact hs k hk
  have hp : s i ≠ 0 := elim_clean (ci i (by omega)) (cj i (by omega)) hlast
  refine ⟨r - (r i / s i) • s, ?_, ?_, ?_, hrd.step hij hsd _⟩
  · intro k hk hik
    rw [elim_val (ci i (by omega)) (cj i (by omega)) (cj k hk) (ci k hk) hp]
    rfl
  · intro k hk hki
    rw [hr k hk, Pi.sub_apply, Pi.smul_apply, hsz k (by omega), smul_zero, sub_zero]
  · intro k hk
    rw [Pi.sub_apply, Pi.smul_apply]
    by_cases hki : k = i
    · subst hki
      rw [smul_eq_mul]
      field_simp
      ring
    · rw [hrz k (by omega), hsz k (by omega), smul_zero, sub_zero]

theorem elimStep_clean {ε : Type} {zl : ε} {n w : Nat} (hnw : n ≤ w) {N : Matrix (Fin n) (Fin n) K} {z : Nat → Nat}
    {v : List (List F)} (hv : Clean w N z v) {i j : Nat} (hij : i < j) (hj : j < n) (hzi : z i = i) (hzj : z j = i) :
    ∃ v', elimStep zl v (i, j) = .ok v' ∧ Clean w N (fun a => if a = j then i + 1 else z a) v' := by
  obtain ⟨hi', hj', hwi, hwj, he⟩ := elimStep_eq zl hv.1 (show i < n by omega) hj (by omega)
  have hli : v[i].length = w := hv.1.2 _ (List.getElem_mem _)
  have hlj : v[j].length = w := hv.1.2 _ (List.getElem_mem _)
  have hrow : ∀ k, i ≤ k → k < w → (elimRow i v[i] v[j] (div v[i][i] v[j][i]))[k]? =
      some (sub (cell v j k) (div (cell v i k) (div (cell v i i) (cell v j i)))) := by
    intro k hk hkw
    rw [cell_eq hi' (by omega), cell_eq hj' (by omega), cell_eq hi' (by omega), cell_eq hj' (by omega)]
    simp only [elimRow]
    rw [List.getElem?_zipWith]
    simp only [List.getElem?_zipIdx, List.getElem?_eq_getElem (show k < v[j].length by omega),
      List.getElem?_eq_getElem (show k < v[i].length by omega), Option.map_some]
    simp only [Nat.zero_add]
    rw [if_neg (by omega)]
  by_cases hall : ((elimRow i v[i] v[j] (div v[i][i] v[j][i])).drop i).all (fun x => beq x (ofInt 0)) = true
  · exfalso
    rw [List.all_eq_true] at hall
    have hz : ∀ k, i ≤ k → k < w →
        Exact.val (sub (cell v j k) (div (cell v i k) (div (cell v i i) (cell v j i)))) = some (0 : K) := by
      intro k hk hkw
      refine sub_beq_zero (hall _ ?_)
      apply List.mem_of_getElem? (i := k - i)
      rw [List.getElem?_drop, show i + (k - i) = k by omega, hrow k hk hkw]
    obtain ⟨r, h1, h2, h3, h4⟩ := clean_step hnw hv hij hj hzi hzj (by rw [hz _ (by omega) (by omega)]; simp)
    refine h4.ne_zero hj fun k hk => ?_
    by_cases hik : i ≤ k
    · have := h1 k (by omega) hik
      rw [hz k hik (by omega)] at this
      injection this with this
      exact this.symm
    · exact h3 k (by omega)
  · rw [Bool.not_eq_true] at hall
    rw [hall] at he
    simp only [Bool.false_eq_true, if_false] at he
    refine ⟨_, he, elimStep_rect hv.1 (by omega) hj (by omega) he, ?_⟩
    intro a ha hlast
    by_cases haj : a = j
    · subst haj
      have hk1 : ∀ k, i ≤ k → k < w → (ent (v.set a (elimRow i v[i] v[a] (div v[i][i] v[a][i]))) a k : Option K) =
          Exact.val (sub (cell v a k) (div (cell v i k) (div (cell v i i) (cell v a i)))) := by
        intro k hk hkw
        unfold ent
        rw [List.getElem?_set_self hj', Option.bind_some, hrow k hk hkw]
        rfl
      rw [hk1 (w - 1) (by omega) (by omega)] at hlast
      obtain ⟨r, h1, h2, h3, h4⟩ := clean_step hnw hv hij hj hzi hzj hlast
      refine ⟨r, ?_, ?_, h4⟩
      · intro k hk
        by_cases hik : i ≤ k
        · rw [hk1 k hik hk]; exact h1 k hk hik
        · rw [← h2 k hk (by omega)]
          obtain ⟨p, q, hp', hq', g1, g2⟩ := elimStep_ent hv.1 (show i < n by omega) hj (by omega) he
          obtain ⟨x, y, hx, hy, hxy⟩ := g2 k hk
          unfold ent
          rw [hxy, hx, if_pos (by omega)]
      · simp only [if_true]
        exact h3
    · have hsame : ∀ k, (ent (v.set j (elimRow i v[i] v[j] (div v[i][i] v[j][i]))) a k : Option K) = ent v a k := by
        intro k
        unfold ent
        rw [List.getElem?_set_ne (fun h => haj h.symm)]
      simp only [hsame] at hlast ⊢
      simp only [if_neg haj]
      exact hv.2 a ha hlast

theorem Clean.mono {n w : Nat} {N : Matrix (Fin n) (Fin n) K} {z z' : Nat → Nat} {v : List (List F)} (h : Clean w N z v)
    (hz : ∀ a < n, z' a ≤ z a) : Clean w N z' v := by
  refine ⟨h.1, fun a ha hl => ?_⟩
  obtain ⟨r, h1, h2, h3⟩ := h.2 a ha hl
  exact ⟨r, h1, fun k hk => h2 k (lt_of_lt_of_le hk (hz a ha)), h3⟩

theorem innerLoop_clean {ε : Type} {zl : ε} {n w : Nat} (hnw : n ≤ w) {N : Matrix (Fin n) (Fin n) K} {v : List (List F)} {i t : Nat}
    (hv : Clean w N (fun a => min i a) v) (ht : i + 1 + t ≤ n) :
    ∃ v', innerLoop zl i t v = .ok v' ∧ Clean w N (fun a => if i < a ∧ a < i + 1 + t then i + 1 else min i a) v' := by
  induction t with
  | zero =>
    refine ⟨v, rfl, hv.mono fun a _ => ?_⟩
    rw [if_neg (by omega)]
  | succ t ih =>
    obtain ⟨u, hu, h2⟩ := ih (by omega)
    obtain ⟨v', h3, h4⟩ := elimStep_clean (zl := zl) hnw h2 (i := i) (j := i + 1 + t) (by omega) (by omega)
      (by rw [if_neg (by omega)]; omega) (by rw [if_neg (by omega)]; omega)
    refine ⟨v', by rw [innerLoop_succ, hu]; exact h3, h4.mono fun a ha => ?_⟩
    split <;> split <;> (try split) <;> omega

theorem outerLoop_clean {ε : Type} {zl : ε} {n w m : Nat} (hnw : n ≤ w) {N : Matrix (Fin n) (Fin n) K} {v : List (List F)}
    (hv : Clean w N (fun _ => 0) v) (hm : m ≤ n - 1) :
    ∃ v', outerLoop zl n m v = .ok v' ∧ Clean w N (fun a => min m a) v' := by
  induction m with
  | zero => exact ⟨v, rfl, hv.mono fun a _ => by simp⟩
  | succ m ih =>
    obtain ⟨u, hu, h2⟩ := ih (by omega)
    obtain ⟨v', h3, h4⟩ := innerLoop_clean (zl := zl) hnw h2 (t := n - (m + 1)) (by omega)
    refine ⟨v', by rw [outerLoop_succ, hu]; exact h3, h4.mono fun a ha => ?_⟩
    split <;> omega

/-- **Phase one never finds a zero line** if the leading block is invertible. -/
theorem eliminate_total {ε : Type} {zl : ε} {n w : Nat} (hnw : n ≤ w) {v : List (List F)} {f : Nat → Nat → K} (hv : Ent n w v f)
    (hd : leadDet n f ≠ 0) : ∃ v', eliminate zl v = .ok v' := by
  obtain ⟨N, hN⟩ := dual_of_det hd
  rw [eliminate_eq, hv.1.1]
  obtain ⟨v', h, _⟩ := outerLoop_clean (zl := zl) hnw (N := N) (v := v) (m := n - 1)
    ⟨hv.1, fun a ha _ => ⟨f a, fun k hk => hv.2 a ha k hk, fun k hk => absurd hk (Nat.not_lt_zero k), hN a ha⟩⟩ (le_refl _)
  exact ⟨v', h⟩

/-! ### Phase two after a zero pivot -/

theorem elimStep_dirty {ε : Type} {zl : ε} {n w κ : Nat} {v : List (List F)} (hv : Rect n w v) {i j : Nat} (hi : i < n) (hj : j < n)
    (hiκ : i ≤ κ) (hκ : κ < w) (hd : (ent v i κ : Option K) = none) :
    ∃ v', elimStep zl v (i, j) = .ok v' ∧ (ent v' j κ : Option K) = none := by
  obtain ⟨hi', hj', hwi, hwj, he⟩ := elimStep_eq zl hv hi hj (by omega)
  have hli : v[i].length = w := hv.2 _ (List.getElem_mem _)
  have hlj : v[j].length = w := hv.2 _ (List.getElem_mem _)
  have hrow : (elimRow i v[i] v[j] (div v[i][i] v[j][i]))[κ]? =
      some (sub (cell v j κ) (div (cell v i κ) (div (cell v i i) (cell v j i)))) := by
    rw [cell_eq hi' (by omega), cell_eq hj' (by omega), cell_eq hi' (by omega), cell_eq hj' (by omega)]
    simp only [elimRow]
    rw [List.getElem?_zipWith]
    simp only [List.getElem?_zipIdx, List.getElem?_eq_getElem (show κ < v[j].length by omega),
      List.getElem?_eq_getElem (show κ < v[i].length by omega), Option.map_some]
    simp only [Nat.zero_add]
    rw [if_neg (by omega)]
  rw [ent_cell hv hi hκ] at hd
  have hnone : (Exact.val (sub (cell v j κ) (div (cell v i κ) (div (cell v i i) (cell v j i)))) : Option K) = none :=
    Exact.sub_none (Or.inr (Exact.div_none (Or.inl hd)))
  have hall : ((elimRow i v[i] v[j] (div v[i][i] v[j][i])).drop i).all (fun x => beq x (ofInt 0)) = false := by
    rw [List.all_eq_false]
    refine ⟨sub (cell v j κ) (div (cell v i κ) (div (cell v i i) (cell v j i))), List.mem_of_getElem? (i := κ - i) ?_, ?_⟩
    · rw [List.getElem?_drop, show i + (κ - i) = κ by omega, hrow]
    · rw [Exact.beq_none_left hnone val_zero]; simp
  rw [hall] at he
  simp only [Bool.false_eq_true, if_false] at he
  refine ⟨_, he, ?_⟩
  unfold ent
  rw [List.getElem?_set_self hj', Option.bind_some, hrow]
  exact hnone

theorem innerLoop_dirty {ε : Type} {zl : ε} {n w κ : Nat} {v : List (List F)} (hv : Rect n w v) {i t : Nat} (ht : i + 1 + t ≤ n)
    (hiκ : i ≤ κ) (hκ : κ < w) (hd : (ent v i κ : Option K) = none) :
    ∃ v', innerLoop zl i t v = .ok v' ∧ Rect n w v' ∧ (∀ a, (ent v a κ : Option K) = none → (ent v' a κ : Option K) = none) ∧
      ∀ a, i < a → a < i + 1 + t → (ent v' a κ : Option K) = none := by
  induction t with
  | zero => exact ⟨v, rfl, hv, fun _ h => h, fun a h1 h2 => absurd h2 (by omega)⟩
  | succ t ih =>
    obtain ⟨u, hu, hr, h1, h2⟩ := ih (by omega)
    obtain ⟨v', h3, h4⟩ := elimStep_dirty (zl := zl) (j := i + 1 + t) hr (by omega) (by omega) hiκ hκ (h1 i hd)
    have hback : ∀ a, (ent u a κ : Option K) = none → (ent v' a κ : Option K) = none := fun a ha => by
      by_contra hc
      exact elimStep_back hr (by omega) (by omega) (by omega) h3 hκ hc ha
    refine ⟨v', by rw [innerLoop_succ, hu]; exact h3, elimStep_rect hr (by omega) (by omega) (by omega) h3,
      fun a ha => hback a (h1 a ha), fun a ha1 ha2 => ?_⟩
    by_cases haj : a = i + 1 + t
    · subst haj; exact h4
    · exact hback a (h2 a ha1 (by omega))

theorem eliminate_dirty {ε : Type} {zl : ε} {n w κ : Nat} {v : List (List F)} (hv : Rect n w v) (hn : 0 < n) (hnκ : n ≤ κ + 1)
    (hκ : κ < w) (hd : (ent v 0 κ : Option K) = none) :
    ∃ v', eliminate zl v = .ok v' := by
  rw [eliminate_eq, hv.1]
  suffices h : ∀ m, m ≤ n - 1 → ∃ v', outerLoop zl n m v = .ok v' ∧ Rect n w v' ∧
      ∀ a, a < n → (a = 0 ∨ 0 < m) → (ent v' a κ : Option K) = none by
    obtain ⟨v', h, _⟩ := h (n - 1) (le_refl _)
    exact ⟨v', h⟩
  intro m hm
  induction m with
  | zero =>
    refine ⟨v, rfl, hv, fun a _ h => ?_⟩
    rcases h with rfl | h
    · exact hd
    · omega
  | succ m ih =>
    obtain ⟨u, hu, hr, h1⟩ := ih (by omega)
    obtain ⟨v', h2, hr', h3, h4⟩ := innerLoop_dirty (zl := zl) hr (i := m) (t := n - (m + 1)) (by omega) (by omega) hκ
      (h1 m (by omega) (by omega))
    refine ⟨v', by rw [outerLoop_succ, hu]; exact h2, hr', fun a ha _ => ?_⟩
    by_cases hma : m < a
    · exact h4 a hma (by omega)
    · exact h3 a (h1 a ha (by omega))

/-- If the last row came out finite then all rows did. -/
theorem eliminate_last_row {ε : Type} {zl : ε} {n w : Nat} {v v' : List (List F)} (hv : Rect n w v) (hnw : n ≤ w)
    (h : eliminate zl v = .ok v') (hf : (ent v' (n - 1) (w - 1) : Option K) ≠ none) : ∀ a < n, (ent v' a (w - 1) : Option K) ≠ none := by
  rw [eliminate_eq, hv.1] at h
  have hinner : ∀ (i t : Nat) (v v' : List (List F)), Rect n w v → i + 1 + t ≤ n → innerLoop zl i t v = .ok v' →
      (∀ a, (a ≤ i ∨ i + 1 + t ≤ a) → v'[a]? = v[a]?) ∧
      (0 < t → (ent v' (i + t) (w - 1) : Option K) ≠ none → (ent v i (w - 1) : Option K) ≠ none) := by
    intro i t v v' hv ht h
    induction t generalizing v' with
    | zero => cases h; exact ⟨fun _ _ => rfl, fun h => absurd h (by omega)⟩
    | succ t ih =>
      rw [innerLoop_succ] at h
      obtain ⟨u, hu, h⟩ := bind_eq_ok.1 h
      have hr := innerLoop_rect hv (by omega) (by omega) hu
      obtain ⟨h1, _⟩ := ih u (by omega) hu
      obtain ⟨p, q, hp, hq, g1, g2⟩ := elimStep_ent hr (by omega) (by omega) (by omega) h
      refine ⟨fun a ha => by rw [g1 a (by omega), h1 a (by omega)], fun _ hfin => ?_⟩
      obtain ⟨x, y, hx, hy, hxy⟩ := g2 (w - 1) (by omega)
      intro hn
      apply hfin
      have hyn : (Exact.val y : Option K) = none := by
        unfold ent at hn
        rw [← h1 i (by omega), hy] at hn
        exact hn
      unfold ent
      rw [show i + (t + 1) = i + 1 + t by omega, hxy, if_neg (by omega)]
      exact Exact.sub_none (Or.inr (Exact.div_none (Or.inl hyn)))
  suffices H : ∀ m, m ≤ n - 1 → ∀ v', outerLoop zl n m v = .ok v' → (ent v' (n - 1) (w - 1) : Option K) ≠ none →
      ∀ a < m, (ent v' a (w - 1) : Option K) ≠ none by
    intro a ha
    by_cases h' : a = n - 1
    · rw [h']; exact hf
    · exact H (n - 1) (le_refl _) v' h hf a (by omega)
  intro m hm
  induction m with
  | zero => intro _ _ _ a ha; omega
  | succ m ih =>
    intro v' h hf a ha
    rw [outerLoop_succ] at h
    obtain ⟨u, hu, h⟩ := bind_eq_ok.1 h
    have hr := outerLoop_rect hv (by omega) hnw hu
    obtain ⟨h1, h2⟩ := hinner m (n - (m + 1)) u v' hr (by omega) h
    have hl := innerLoop_back hr (by omega) (by omega) h (by omega) hf
    have hsame : (ent v' a (w - 1) : Option K) = ent u a (w - 1) := by
      unfold ent
      rw [h1 a (by omega)]
    rw [hsame]
    by_cases ham : a = m
    · subst ham
      exact h2 (by omega) (by rw [show a + (n - (a + 1)) = n - 1 by omega]; exact hf)
    · exact ih (by omega) u hu hl a (by omega)

/-! ### Both phases -/

theorem phase_two_go {ε : Type} {zl : ε} {n c : Nat} {v : List (List F)} {f₀ f : Nat → Nat → K} (e1 : Ent n (n + c) v f)
    (s1 : Steps n (n - 1) f₀ f) (hd : leadDet n f₀ ≠ 0) :
    ∃ v' g, eliminate zl ((v.reverse.map List.reverse).map (rotate c)) = .ok v' ∧ Steps n (n - 1) (revF n c f) g ∧
      Ent n (n + c) v' g ∧ ∀ a < n, g a a ≠ 0 := by
  have hlow := revF_low (c := c) s1
  have hdiag := revF_diag (c := c) s1 hd
  obtain ⟨v', g, h2, s2, e2⟩ := eliminate_go (zl := zl) e1.reverse (by omega) (by
    intro m f' hm h
    refine ⟨?_, ?_⟩
    · rw [h.diag_of_lower (by omega) hlow m (by omega)]
      exact hdiag m (by omega)
    · intro j hj hjn
      refine ⟨j, by omega, by omega, ?_⟩
      have hl := h.lower (by omega) hlow
      unfold outerT
      rw [if_pos (by omega), hl m (by omega) j hjn hj, mul_zero, sub_zero, h.diag_of_lower (by omega) hlow j hjn]
      exact hdiag j hjn)
  refine ⟨v', g, h2, s2, e2, fun a ha => ?_⟩
  rw [s2.diag_of_lower (by omega) hlow a ha]
  exact hdiag a ha

/-- **Neither phase reports a zero line** if the leading block is invertible. -/
theorem twoPhase_total {ε : Type} {zl : ε} {n c : Nat} (hn : 0 < n) (hc : 0 < c) {u : List (List F)} {f₀ : Nat → Nat → K}
    (hu : Ent n (n + c) u f₀) (hd : leadDet n f₀ ≠ 0) :
    ∃ v v', eliminate zl u = .ok v ∧ eliminate zl ((v.reverse.map List.reverse).map (rotate c)) = .ok v' := by
  obtain ⟨v, h1⟩ := eliminate_total (zl := zl) (by omega) hu hd
  have hr := eliminate_rect hu.1 (by omega) h1
  by_cases hl : (ent v (n - 1) (n + c - 1) : Option K) = none
  · obtain ⟨v', h2⟩ := eliminate_dirty (zl := zl) (K := K) (κ := n) (rect_rev hr c) hn (by omega) (by omega) (by
      rw [ent_rev hr hn (by omega), if_neg (by omega), Nat.sub_zero, show n + (c - 1 - (n - n)) = n + c - 1 by omega]
      exact hl)
    exact ⟨v, v', h1, h2⟩
  · obtain ⟨f, s1, e1⟩ := eliminate_exact hu (by omega) h1 (eliminate_last_row hu.1 (by omega) h1 hl)
    obtain ⟨v', g, h2, _⟩ := phase_two_go (zl := zl) e1 s1 hd
    exact ⟨v, v', h1, h2⟩

/-- **The elimination is exact** if all leading minors are non-zero. -/
theorem twoPhase_go {ε : Type} {zl : ε} {n c : Nat} {u : List (List F)} {f₀ : Nat → Nat → K}
    (hu : Ent n (n + c) u f₀) (hd : ∀ k ≤ n, leadDet k f₀ ≠ 0) :
    ∃ v v' f g, eliminate zl u = .ok v ∧ eliminate zl ((v.reverse.map List.reverse).map (rotate c)) = .ok v' ∧
      Steps n (n - 1) f₀ f ∧ Steps n (n - 1) (revF n c f) g ∧ Ent n (n + c) v' g ∧ ∀ a < n, g a a ≠ 0 := by
  obtain ⟨N, hN⟩ := dual_of_det (hd n (le_refl _))
  have hdual : ∀ {m f'}, m ≤ n → Steps n m f₀ f' → ∀ a < n, DualAt N a (f' a) := by
    intro m f' hm h
    induction h with
    | zero => exact hN
    | succ m f f' h hp ih =>
      intro a ha
      rw [outer_row h.upper (by omega) a]
      split
      · rename_i hc
        exact (ih hu hd hN (by omega) a ha).step hc.1 (ih hu hd hN (by omega) m (by omega)) _
      · exact ih hu hd hN (by omega) a ha
  obtain ⟨v, f, h1, s1, e1⟩ := eliminate_go (zl := zl) hu (by omega) (by
    intro m f' hm h
    have hp := (h.pivot_iff (by omega)).2 (hd _ (by omega))
    refine ⟨hp, fun j hj hjn => ?_⟩
    have hs : Steps n (m + 1) f₀ (outerT m (n - (m + 1)) f') := .succ m _ _ h hp
    by_contra hno
    push Not at hno
    refine (hdual (by omega) hs j hjn).ne_zero hjn fun k hk => ?_
    by_cases hmk : m ≤ k
    · exact hno k hmk (by omega)
    · exact hs.upper k (by omega) j hjn (by omega))
  obtain ⟨v', g, h2, s2, e2, hg⟩ := phase_two_go (zl := zl) e1 s1 (hd n (le_refl _))
  exact ⟨v, v', f, g, h1, h2, s1, s2, e2, hg⟩

end
end MUL
