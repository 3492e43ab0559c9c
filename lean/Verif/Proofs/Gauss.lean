import Verif.Proofs.Inverse
import Mathlib.LinearAlgebra.Matrix.Nondegenerate
/-!
# Every outcome of the elimination
-/

set_option linter.unusedSectionVars false

namespace MUL
open Out Spec FArith Matrix

section
variable {F : Type} [FArith F] {K : Type} [Field K] [LinearOrder K] [IsStrictOrderedRing K] [FloorRing K] [Exact F K]

/-! ## Zero pivots -/

theorem elimStep_zero {ε : Type} {zl : ε} {n w κ : Nat} {v : List (List F)} (hv : Rect n w v) {i j : Nat} (hi : i < n) (hj : j < n)
    (hiκ : i ≤ κ) (hκ : κ < w) (hp : (ent v i i : Option K) = some 0) (hq : (ent v j i : Option K) ≠ none) :
    ∃ v', elimStep zl v (i, j) = .ok v' ∧ (ent v' j κ : Option K) = none := by
  obtain ⟨hi', hj', hwi, hwj, he⟩ := elimStep_eq zl hv hi hj (by omega)
  have hli : v[i].length = w := hv.2 _ (List.getElem_mem _)
  have hlj : v[j].length = w := hv.2 _ (List.getElem_mem _)
  have hrow : (elimRow i v[i] v[j] (div v[i][i] v[j][i]))[κ]? =
      some (sub (cell v j κ) (div (cell v i κ) (div (cell v i i) (cell v j i)))) := by
    rw [cell_eq hi' (by omega), cell_eq hj' (by omega), cell_eq hi' (by omega), cell_eq hj' (by omega)]
    simp only [elimRow]
    rw [List.getElem?_zipWith]
    simp only [List.getElem?_zipIdx, List.getElem?_eq_getElem (show κ < v[j].length by omega),
      List.getElem?_eq_getElem (show κ < v[i].length by omega), Option.map_some]
    simp only [Nat.zero_add]
    rw [if_neg (by omega)]
  rw [ent_cell hv hi (by omega)] at hp
  rw [ent_cell hv hj (by omega)] at hq
  obtain ⟨q, hq⟩ := Option.ne_none_iff_exists'.1 hq
  have hnone : (Exact.val (sub (cell v j κ) (div (cell v i κ) (div (cell v i i) (cell v j i)))) : Option K) = none := elim_zero hp hq
  have hall : ((elimRow i v[i] v[j] (div v[i][i] v[j][i])).drop i).all (fun x => beq x (ofInt 0)) = false := by
    rw [List.all_eq_false]
    refine ⟨sub (cell v j κ) (div (cell v i κ) (div (cell v i i) (cell v j i))), List.mem_of_getElem? (i := κ - i) ?_, ?_⟩
    · rw [List.getElem?_drop, show i + (κ - i) = κ by omega, hrow]
    · rw [Exact.beq_none_left hnone val_zero]; simp
  rw [hall] at he
  simp only [Bool.false_eq_true, if_false] at he
  refine ⟨_, he, ?_⟩
  unfold ent
  rw [List.getElem?_set_self hj', Option.bind_some, hrow]
  exact hnone

theorem innerLoop_zero {ε : Type} {zl : ε} {n w κ : Nat} {v : List (List F)} (hv : Rect n w v) {i t : Nat} (ht : i + 1 + t ≤ n)
    (hiκ : i ≤ κ) (hκ : κ < w) (hp : (ent v i i : Option K) = some 0) (hq : ∀ j < n, (ent v j i : Option K) ≠ none) :
    ∃ v', innerLoop zl i t v = .ok v' ∧ Rect n w v' ∧ (∀ a, (a ≤ i ∨ i + 1 + t ≤ a) → v'[a]? = v[a]?) ∧
      ∀ a, i < a → a < i + 1 + t → (ent v' a κ : Option K) = none := by
  induction t with
  | zero => exact ⟨v, rfl, hv, fun _ _ => rfl, fun a h1 h2 => absurd h2 (by omega)⟩
  | succ t ih =>
    obtain ⟨u, hu, hr, h1, h2⟩ := ih (by omega)
    have hsame : ∀ a k, (a ≤ i ∨ i + 1 + t ≤ a) → (ent u a k : Option K) = ent v a k := by
      intro a k ha
      unfold ent
      rw [h1 a ha]
    obtain ⟨v', h3, h4⟩ := elimStep_zero (zl := zl) (K := K) (j := i + 1 + t) hr (by omega) (by omega) hiκ hκ
      (by rw [hsame i i (by omega)]; exact hp) (by rw [hsame _ i (by omega)]; exact hq _ (by omega))
    obtain ⟨_, _, _, _, g1, _⟩ := elimStep_ent hr (by omega) (by omega) (by omega) h3
    refine ⟨v', by rw [innerLoop_succ, hu]; exact h3, elimStep_rect hr (by omega) (by omega) (by omega) h3,
      fun a ha => by rw [g1 a (by omega), h1 a (by omega)], fun a ha1 ha2 => ?_⟩
    by_cases haj : a = i + 1 + t
    · subst haj; exact h4
    · unfold ent
      rw [g1 a haj]
      exact h2 a ha1 (by omega)

/-- If the pivot of step `k` is zero, the elimination goes on with numbers that are not finite. -/
theorem outerLoop_zero {ε : Type} {zl : ε} {n w κ k : Nat} {v u : List (List F)} (hu : outerLoop zl n k v = .ok u) (hr : Rect n w u)
    (hk : k < n - 1) (hnκ : n ≤ κ + 1) (hκ : κ < w) (hp : (ent u k k : Option K) = some 0) (hq : ∀ j < n, (ent u j k : Option K) ≠ none) :
    ∀ m, k < m → m ≤ n - 1 → ∃ v', outerLoop zl n m v = .ok v' ∧ Rect n w v' ∧ ∀ a, k < a → a < n → (ent v' a κ : Option K) = none := by
  intro m hkm hm
  induction m with
  | zero => omega
  | succ m ih =>
    rcases Nat.lt_or_ge k m with h | h
    · obtain ⟨v1, h1, r1, d1⟩ := ih h (by omega)
      obtain ⟨v', h2, hr', h3, h4⟩ := innerLoop_dirty (zl := zl) r1 (i := m) (t := n - (m + 1)) (by omega) (by omega) hκ
        (d1 m h (by omega))
      exact ⟨v', by rw [outerLoop_succ, h1]; exact h2, hr', fun a ha1 ha2 => h3 a (d1 a ha1 ha2)⟩
    · obtain rfl : m = k := by omega
      obtain ⟨v', h2, hr', h3, h4⟩ := innerLoop_zero (zl := zl) hr (i := m) (t := n - (m + 1)) (by omega) (by omega) hκ hp hq
      exact ⟨v', by rw [outerLoop_succ, hu]; exact h2, hr', fun a ha1 ha2 => h4 a ha1 (by omega)⟩

/-! ## Rows as combinations -/

theorem Steps.combination {n m : Nat} {f f' : Nat → Nat → K} (h : Steps n m f f') (hm : m ≤ n) :
    ∀ a < n, ∃ c : Nat → K, f' a = f a - ∑ t ∈ Finset.range (min m a), c t • f t := by
  induction h with
  | zero => intro a _; exact ⟨0, by simp⟩
  | succ m f f' h hp ih =>
    intro a ha
    obtain ⟨c, hc⟩ := ih (by omega) a ha
    rw [outer_row h.upper (by omega)]
    by_cases hma : m < a
    · rw [if_pos ⟨hma, ha⟩]
      obtain ⟨d, hd⟩ := ih (by omega) m (by omega)
      refine ⟨fun t => if t = m then f' a m / f' m m else c t - f' a m / f' m m * d t, ?_⟩
      rw [show min (m + 1) a = m + 1 by omega, Finset.sum_range_succ]
      beta_reduce
      rw [if_pos rfl]
      have hsum : ∑ t ∈ Finset.range m, (if t = m then f' a m / f' m m else c t - f' a m / f' m m * d t) • f t =
          ∑ t ∈ Finset.range m, c t • f t - (f' a m / f' m m) • ∑ t ∈ Finset.range m, d t • f t := by
        rw [Finset.smul_sum, ← Finset.sum_sub_distrib]
        refine Finset.sum_congr rfl fun t ht => ?_
        rw [if_neg (by have := Finset.mem_range.1 ht; omega), sub_smul, smul_smul]
      rw [hsum]
      generalize hq : f' a m / f' m m = q
      rw [hc, hd, show min m a = m by omega, show min m m = m by omega, smul_sub]
      abel
    · rw [if_neg (fun hh => hma hh.1)]
      exact ⟨c, by rw [hc, show min m a = min (m + 1) a by omega]⟩

/-- Row `j` is a combination of the rows `0 .. m`. -/
def InSpan (w : Nat) (f : Nat → Nat → K) (m j : Nat) : Prop := ∃ c : Nat → K, ∀ k < w, f j k = ∑ t ∈ Finset.range (m + 1), c t * f t k

/-- A row has become zero exactly if it was a combination of the rows before. -/
theorem Steps.zero_iff {n w m j : Nat} {f f' : Nat → Nat → K} (h : Steps n (m + 1) f f') (hmj : m < j) (hj : j < n) (hw : n ≤ w) :
    (∀ k < w, f' j k = 0) ↔ InSpan w f m j := by
  obtain ⟨c, hc⟩ := h.combination (by omega) j hj
  rw [show min (m + 1) j = m + 1 by omega] at hc
  have hrow : ∀ k, f' j k = f j k - ∑ t ∈ Finset.range (m + 1), c t * f t k := by
    intro k
    rw [hc]
    simp [Finset.sum_apply]
  constructor
  · intro h0
    refine ⟨c, fun k hk => ?_⟩
    have := hrow k
    rw [h0 k hk] at this
    exact (sub_eq_zero.1 this.symm)
  · rintro ⟨d, hd⟩
    -- the coefficients of the remainder
    have hrem : ∀ k < w, f' j k = ∑ t : Fin (m + 1), (d t - c t) * f t k := by
      intro k hk
      rw [hrow, hd k hk, ← Finset.sum_sub_distrib, ← Fin.sum_univ_eq_sum_range (fun t => d t * f t k - c t * f t k) (m + 1)]
      exact Finset.sum_congr rfl fun t _ => by ring
    have hdet : MUL.leadDet (m + 1) f ≠ 0 := by
      rw [h.leadDet_prod (by omega) (by omega) (by omega), Finset.prod_ne_zero_iff]
      intro i _
      exact h.pivot _ i.2
    have hz : Matrix.vecMul (fun t : Fin (m + 1) => d t - c t) (Matrix.of fun i j : Fin (m + 1) => f i j) = 0 := by
      funext k
      have h1 := hrem k (by omega)
      rw [h.upper k.1 k.2 j hj (by omega)] at h1
      simp only [Matrix.vecMul, dotProduct, Matrix.of_apply, Pi.zero_apply]
      exact h1.symm
    have hzero : (fun t : Fin (m + 1) => d t - c t) = 0 := Matrix.eq_zero_of_vecMul_eq_zero hdet hz
    intro k hk
    rw [hrem k hk]
    refine Finset.sum_eq_zero fun t _ => ?_
    have : d t - c t = 0 := congrFun hzero t
    rw [this, zero_mul]

/-! ## Zero rows -/

theorem elimStep_err {ε : Type} {zl : ε} {n w : Nat} {v : List (List F)} {f : Nat → Nat → K} (hv : Ent n w v f) {i j : Nat}
    (hi : i < n) (hj : j < n) (hw : i < w) (hp : f i i ≠ 0)
    (hz : ∀ k, i ≤ k → k < w → f j k - f j i / f i i * f i k = 0) : elimStep zl v (i, j) = .err zl := by
  obtain ⟨hi', hj', hwi, hwj, he⟩ := elimStep_eq zl hv.1 hi hj hw
  have hli : v[i].length = w := hv.1.2 _ (List.getElem_mem _)
  have hlj : v[j].length = w := hv.1.2 _ (List.getElem_mem _)
  rw [he, if_pos]
  rw [List.all_eq_true]
  intro x hx
  obtain ⟨k, hk, rfl⟩ := List.getElem_of_mem hx
  rw [List.length_drop, elimRow_length (by omega)] at hk
  rw [List.getElem_drop]
  have hik : i + k < w := by omega
  have h1 := hv.cell hi hw
  have h2 := hv.cell hj hw
  have h3 := hv.cell hj hik
  have h4 := hv.cell hi hik
  rw [cell_eq hi' (by omega)] at h1 h4
  rw [cell_eq hj' (by omega)] at h2 h3
  have hval := elim_val h1 h2 h3 h4 hp
  rw [hz _ (by omega) hik] at hval
  have hrow : (elimRow i v[i] v[j] (div v[i][i] v[j][i]))[i + k]'(by rw [elimRow_length (by omega)]; omega) =
      sub v[j][i + k] (div v[i][i + k] (div v[i][i] v[j][i])) := by
    simp only [elimRow, List.getElem_zipWith, List.getElem_zipIdx, Nat.zero_add]
    rw [if_neg (by omega)]
  rw [hrow, Exact.beq_val hval val_zero]
  simp

theorem innerLoop_err_mono {ε : Type} {zl e : ε} {i t t' : Nat} {v : List (List F)} (h : innerLoop zl i t v = .err e) (htt : t ≤ t') :
    innerLoop zl i t' v = .err e := by
  induction t' with
  | zero => obtain rfl : t = 0 := by omega
            exact h
  | succ t' ih =>
    rcases Nat.lt_or_ge t (t' + 1) with hlt | hge
    · rw [innerLoop_succ, ih (by omega)]; rfl
    · obtain rfl : t = t' + 1 := by omega
      exact h

theorem outerLoop_err_mono {ε : Type} {zl e : ε} {n m m' : Nat} {v : List (List F)} (h : outerLoop zl n m v = .err e) (hmm : m ≤ m') :
    outerLoop zl n m' v = .err e := by
  induction m' with
  | zero => obtain rfl : m = 0 := by omega
            exact h
  | succ m' ih =>
    rcases Nat.lt_or_ge m (m' + 1) with hlt | hge
    · rw [outerLoop_succ, ih (by omega)]; rfl
    · obtain rfl : m = m' + 1 := by omega
      exact h

/-- The rows after a step, as long as the pivot is not zero. -/
theorem zero_row_iff {n w m j : Nat} {f f' : Nat → Nat → K} (hs : Steps n m f f') (hp : f' m m ≠ 0) (hmj : m < j) (hj : j < n) (hw : n ≤ w) :
    (∀ k, m ≤ k → k < w → f' j k - f' j m / f' m m * f' m k = 0) ↔ InSpan w f m j := by
  rw [← (Steps.succ m f f' hs hp).zero_iff hmj hj hw]
  constructor
  · intro h k hk
    by_cases hmk : m ≤ k
    · unfold outerT
      rw [if_pos (by omega)]
      exact h k hmk hk
    · exact (Steps.succ m f f' hs hp).upper k (by omega) j hj (by omega)
  · intro h k hmk hk
    have := h k hk
    unfold outerT at this
    rwa [if_pos (by omega)] at this

/-- Some row is a combination of the first rows, and these are independent. -/
def DependentRows (n w : Nat) (f : Nat → Nat → K) : Prop :=
  ∃ m j, m < j ∧ j < n ∧ (∀ k ≤ m + 1, leadDet k f ≠ 0) ∧ InSpan w f m j

theorem eliminate_err {ε : Type} {zl : ε} {n w : Nat} (hw : n ≤ w) {v : List (List F)} {f : Nat → Nat → K} (hv : Ent n w v f)
    (h : DependentRows n w f) : eliminate zl v = .err zl := by
  classical
  rw [eliminate_eq, hv.1.1]
  -- the first step in which a row vanishes
  let P : Nat → Prop := fun m => ∃ j, m < j ∧ j < n ∧ (∀ k ≤ m + 1, leadDet k f ≠ 0) ∧ InSpan w f m j
  have hex : ∃ m, P m := h
  obtain ⟨j0, hmj, hjn, hlead, hspan⟩ := Nat.find_spec hex
  have hmin : ∀ m < Nat.find hex, ¬ P m := fun m hm => Nat.find_min hex hm
  generalize Nat.find hex = m at hmj hlead hspan hmin
  obtain ⟨u, f', h1, s1, e1⟩ := outerLoop_go (zl := zl) hv (m := m) (by omega) hw (by
    intro m' f' hm' hs
    have hp : f' m' m' ≠ 0 := (hs.pivot_iff (by omega)).2 (hlead _ (by omega))
    refine ⟨hp, fun j hj hjn' => ?_⟩
    by_contra hno
    push Not at hno
    refine hmin m' hm' ⟨j, hj, hjn', fun k hk => hlead k (by omega), (zero_row_iff hs hp hj hjn' hw).1 fun k hk hkw => ?_⟩
    have := hno k hk hkw
    unfold outerT at this
    rwa [if_pos (by omega)] at this)
  have hp : f' m m ≠ 0 := (s1.pivot_iff (by omega)).2 (hlead _ le_rfl)
  -- the first row that vanishes in this step
  let Q : Nat → Prop := fun j => m < j ∧ j < n ∧ InSpan w f m j
  have hexQ : ∃ j, Q j := ⟨j0, hmj, hjn, hspan⟩
  obtain ⟨hj1, hj2, hj3⟩ := Nat.find_spec hexQ
  have hminQ : ∀ j < Nat.find hexQ, ¬ Q j := fun j hj => Nat.find_min hexQ hj
  generalize Nat.find hexQ = j at hj1 hj2 hj3 hminQ
  have hinner : innerLoop zl m (j - (m + 1)) u >>= (fun v' => elimStep zl v' (m, m + 1 + (j - (m + 1)))) = .err zl := by
    obtain ⟨v', h3, h4⟩ := innerLoop_go (zl := zl) e1 (i := m) (t := j - (m + 1)) (by omega) (by omega) hp (by
      intro a ha1 ha2
      by_contra hno
      push Not at hno
      exact hminQ a (by omega) ⟨ha1, by omega, (zero_row_iff s1 hp ha1 (by omega) hw).1 hno⟩)
    rw [h3, ok_bind]
    have hm' : ∀ k, outerT m (j - (m + 1)) f' m k = f' m k := fun k => by unfold outerT; rw [if_neg (by omega)]
    have hj' : ∀ k, outerT m (j - (m + 1)) f' j k = f' j k := fun k => by unfold outerT; rw [if_neg (by omega)]
    rw [show m + 1 + (j - (m + 1)) = j by omega]
    refine elimStep_err h4 (by omega) hj2 (by omega) (by rw [hm']; exact hp) fun k hk hkw => ?_
    rw [hm', hm', hj', hj']
    exact (zero_row_iff s1 hp hj1 hj2 hw).2 hj3 k hk hkw
  refine outerLoop_err_mono (m := m + 1) ?_ (by omega)
  rw [outerLoop_succ, h1]
  show innerLoop zl m (n - (m + 1)) u = _
  refine innerLoop_err_mono (t := j - (m + 1) + 1) ?_ (by omega)
  rw [innerLoop_succ]
  exact hinner

/-- If no row vanishes, the elimination is either exact to the end or ends with a last row that is not finite. -/
theorem eliminate_ok {ε : Type} {zl : ε} {n w : Nat} (hn : 0 < n) (hw : n ≤ w) {v : List (List F)} {f : Nat → Nat → K} (hv : Ent n w v f)
    (h : ¬ DependentRows n w f) :
    ∃ v', eliminate zl v = .ok v' ∧ ((∃ f', Steps n (n - 1) f f' ∧ Ent n w v' f') ∨ (ent v' (n - 1) (w - 1) : Option K) = none) := by
  classical
  rw [eliminate_eq, hv.1.1]
  have hgo : ∀ M, M ≤ n - 1 → (∀ k ≤ M, leadDet k f ≠ 0) → ∃ v' f', outerLoop zl n M v = .ok v' ∧ Steps n M f f' ∧ Ent n w v' f' := by
    intro M hM hl
    refine outerLoop_go (zl := zl) hv hM hw fun m' f' hm' hs => ?_
    have hp : f' m' m' ≠ 0 := (hs.pivot_iff (by omega)).2 (hl _ (by omega))
    refine ⟨hp, fun j hj hjn' => ?_⟩
    by_contra hno
    push Not at hno
    refine h ⟨m', j, hj, hjn', fun k hk => hl k (by omega), (zero_row_iff hs hp hj hjn' hw).1 fun k hk hkw => ?_⟩
    have := hno k hk hkw
    unfold outerT at this
    rwa [if_pos (by omega)] at this
  by_cases hall : ∀ k ≤ n - 1, leadDet k f ≠ 0
  · obtain ⟨v', f', h1, h2, h3⟩ := hgo (n - 1) le_rfl hall
    exact ⟨v', h1, .inl ⟨f', h2, h3⟩⟩
  · push Not at hall
    have hex : ∃ k, k ≤ n - 1 ∧ leadDet k f = 0 := hall
    obtain ⟨hk1, hk2⟩ := Nat.find_spec hex
    have hmin : ∀ k < Nat.find hex, ¬ (k ≤ n - 1 ∧ leadDet k f = 0) := fun k hk => Nat.find_min hex hk
    generalize Nat.find hex = k0 at hk1 hk2 hmin
    obtain ⟨k, rfl⟩ : ∃ k, k0 = k + 1 := by
      cases k0 with
      | zero => unfold leadDet at hk2; simp at hk2
      | succ k => exact ⟨k, rfl⟩
    obtain ⟨u, f', h1, s1, e1⟩ := hgo k (by omega) fun k' hk' h0 => hmin k' (by omega) ⟨by omega, h0⟩
    have hp : f' k k = 0 := by
      by_contra hne
      exact (s1.pivot_iff (by omega)).1 hne hk2
    obtain ⟨v', h2, _, h3⟩ := outerLoop_zero (K := K) (κ := w - 1) h1 e1.1 (by omega) (by omega) (by omega)
      (by rw [e1.2 k (by omega) k (by omega), hp]) (fun j hj => by rw [e1.2 j hj k (by omega)]; simp) (n - 1) (by omega) le_rfl
    exact ⟨v', h2, .inr (h3 (n - 1) (by omega) (by omega))⟩

/-- **Both phases go through** unless a row vanishes in the first. -/
theorem twoPhase_ok {ε : Type} {zl : ε} {n c : Nat} (hn : 0 < n) (hc : 0 < c) {u : List (List F)} {f₀ : Nat → Nat → K}
    (hu : Ent n (n + c) u f₀) (h : ¬ DependentRows n (n + c) f₀) :
    ∃ v v', eliminate zl u = .ok v ∧ eliminate zl ((v.reverse.map List.reverse).map (rotate c)) = .ok v' := by
  obtain ⟨v, h1, hv⟩ := eliminate_ok (zl := zl) hn (by omega) hu h
  have hr := eliminate_rect hu.1 (by omega) h1
  rcases hv with ⟨f, s1, e1⟩ | hl
  · by_cases hd : leadDet n f₀ = 0
    · -- the last pivot is zero
      have hp : f (n - 1) (n - 1) = 0 := by
        by_contra hne
        have := (s1.pivot_iff (by omega)).1 hne
        rw [show n - 1 + 1 = n by omega] at this
        exact this hd
      have e2 := e1.reverse
      have hrev : revF n c f 0 0 = 0 := by
        unfold revF
        rw [if_pos hn]
        simpa using hp
      rcases Nat.lt_or_ge 1 n with h2 | h2
      · obtain ⟨v', h3, _⟩ := outerLoop_zero (zl := zl) (K := K) (κ := n) (k := 0) (v := (v.reverse.map List.reverse).map (rotate c)) rfl e2.1
          (by omega) (by omega) (by omega) (by rw [e2.2 0 hn 0 (by omega), hrev]) (fun j hj => by rw [e2.2 j hj 0 (by omega)]; simp) (n - 1) (by omega) le_rfl
        exact ⟨v, v', h1, by rw [eliminate_eq, e2.1.1]; exact h3⟩
      · obtain rfl : n = 1 := by omega
        exact ⟨v, _, h1, by rw [eliminate_eq, e2.1.1]; rfl⟩
    · obtain ⟨v', g, h2, _⟩ := phase_two_go (zl := zl) e1 s1 hd
      exact ⟨v, v', h1, h2⟩
  · obtain ⟨v', h2⟩ := eliminate_dirty (zl := zl) (K := K) (κ := n) (rect_rev hr c) hn (by omega) (by omega) (by
      rw [ent_rev hr hn (by omega), if_neg (by omega), Nat.sub_zero, show n + (c - 1 - (n - n)) = n + c - 1 by omega]
      exact hl)
    exact ⟨v, v', h1, h2⟩

end

section
variable {F : Type} [FNum F] {K : Type} [Field K] [LinearOrder K] [IsStrictOrderedRing K] [FloorRing K] [Exact F K]

/-- **When linear systems are reported as having infinitely many solutions.** -/
theorem gauss_err {n : Nat} (hn : 0 < n) {u : List (List F)} {M : Matrix (Fin n) (Fin (n + 1)) K} (hu : MatIs u M) :
    (DependentRows n (n + 1) (sysF M) → gaussAlgorithm u = .err .infiniteSolutions) ∧
    (¬ DependentRows n (n + 1) (sysF M) → ∃ v', gaussAlgorithm u = .ok (.vector (gaussRes n v'))) := by
  rw [gauss_eq hn hu.rect]
  constructor
  · intro h
    rw [eliminate_err (by omega) (ent_sys hu) h]
    rfl
  · intro h
    obtain ⟨v, v', h1, h2⟩ := twoPhase_ok (zl := EvalError.infiniteSolutions) hn (by omega) (ent_sys hu) h
    rw [h1, ok_bind, h2]
    exact ⟨_, rfl⟩

end
end MUL
