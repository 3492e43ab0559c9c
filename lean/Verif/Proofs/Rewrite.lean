import Verif.Proofs.EqSafe
import Verif.Proofs.OutLemmas
/-!
# Subtraction of matrices
-/

namespace MUL
open Out FArith

section
variable {F : Type} [FArith F]

theorem forall₂_pick {α β : Type} {R : α → β → Prop} {l : List α} {r : List β} (h : List.Forall₂ R l r) {a : α} (ha : a ∈ l) : ∃ b, b ∈ r ∧ R a b := by
  induction h with
  | nil => cases ha
  | cons h1 _ ih =>
    rcases List.mem_cons.1 ha with rfl | ha
    · exact ⟨_, List.mem_cons_self, h1⟩
    · obtain ⟨b, hb, h2⟩ := ih ha
      exact ⟨b, List.mem_cons_of_mem _ hb, h2⟩

theorem madd_reads {a b : List (List F)} {v : Value F} (h : madd a b = .ok v) :
    a.length = b.length ∧ ∃ a0 b0, a[0]? = some a0 ∧ b[0]? = some b0 ∧ a0.length = b0.length ∧ ∀ i < b.length, ∀ j < b0.length, ∃ r x, b[i]? = some r ∧ r[j]? = some x := by
  unfold madd at h
  split at h
  · cases h
  · rename_i hl
    obtain ⟨a0, ha0, h⟩ := bind_eq_ok.1 h
    obtain ⟨b0, hb0, h⟩ := bind_eq_ok.1 h
    split at h
    · cases h
    · rename_i hl0
      have hl : a.length = b.length := by simpa using hl
      have hl0 : a0.length = b0.length := by simpa using hl0
      obtain ⟨o, ho, h⟩ := bind_eq_ok.1 h
      refine ⟨hl, a0, b0, idx_eq_ok.1 ha0, idx_eq_ok.1 hb0, hl0, fun i hi j hj => ?_⟩
      have h1 := mapM_eq_ok.1 ho
      obtain ⟨w, -, hw⟩ := forall₂_pick h1 (List.mem_range.2 (hl ▸ hi))
      obtain ⟨w', -, hw'⟩ := forall₂_pick (mapM_eq_ok.1 hw) (List.mem_range.2 (hl0 ▸ hj))
      obtain ⟨x, hx, hw'⟩ := bind_eq_ok.1 hw'
      obtain ⟨y, hy, hw'⟩ := bind_eq_ok.1 hw'
      unfold idx2 at hy
      obtain ⟨r, hr, hy⟩ := bind_eq_ok.1 hy
      exact ⟨r, y, idx_eq_ok.1 hr, idx_eq_ok.1 hy⟩

theorem madd_congr {a b b' : List (List F)} (hl : b.length = b'.length) (h0 : (b[0]?).map List.length = (b'[0]?).map List.length)
    (h : ∀ b0, b[0]? = some b0 → ∀ i < b.length, ∀ j < b0.length, (idx2 b i j : Out String F) = idx2 b' i j) : madd a b = madd a b' := by
  unfold madd
  rw [hl]
  split
  · rfl
  · rename_i hal
    have hal : a.length = b'.length := by simpa using hal
    cases ha : (idx a 0 : Out String (List F)) with
    | ok a0 =>
      simp only [ok_bind]
      cases hb : b[0]? with
      | none =>
        have : b'[0]? = none := by
          rw [hb] at h0
          cases hb' : b'[0]? with
          | none => rfl
          | some _ => rw [hb'] at h0; cases h0
        simp only [idx, hb, this]
        rfl
      | some b0 =>
        rw [hb] at h0
        cases hb' : b'[0]? with
        | none => rw [hb'] at h0; cases h0
        | some b0' =>
          rw [hb'] at h0
          have hlen : b0.length = b0'.length := by simpa using h0
          simp only [idx_eq_ok.2 hb, idx_eq_ok.2 hb', ok_bind, hlen]
          split
          · rfl
          · rename_i hl0
            have hl0 : a0.length = b0'.length := by simpa using hl0
            congr 1
            refine mapM_congr fun i hi => mapM_congr fun j hj => ?_
            rw [h b0 hb i (by rw [hl, ← hal]; exact List.mem_range.1 hi) j (by rw [hlen, ← hl0]; exact List.mem_range.1 hj)]
    | err e => rfl
    | panic => rfl
    | timeout => rfl

/-- Subtracting is adding the negative, if either succeeds. -/
theorem msub_ok (hF : ∀ a b : F, FArith.mul a b = FArith.mul b a) (a b : List (List F)) (v : Value F) :
    msub a b = .ok v ↔ madd a (b.map fun x => x.map fun y => mul (ofInt (-1)) y) = .ok v := by
  have main : ∀ b0, b[0]? = some b0 → (∀ r ∈ b, b0.length ≤ r.length) → msub a b = madd a (b.map fun x => x.map fun y => mul (ofInt (-1)) y) := by
    intro b0 hb0 hr
    have hbn : ((List.range b.length).mapM fun i => do
      let b0 ← idx b 0
      (List.range b0.length).mapM fun j => do
        let y ← idx2 b i j
        (.ok (mul y (ofInt (-1))) : Out String F)) = .ok ((List.range b.length).map fun i => ((b.getD i []).take b0.length).map fun y => mul (ofInt (-1)) y) := by
      refine mapM_ok_of_forall fun i hi => ?_
      have hi := List.mem_range.1 hi
      rw [idx_eq_ok.2 hb0, ok_bind]
      have hrl := hr _ (List.getElem_mem hi)
      rw [mapM_ok_of_forall (g := fun j => mul (ofInt (-1)) (b[i].getD j (ofInt 0))) (fun j hj => ?_)]
      · congr 1
        apply List.ext_getElem
        · simp [hi]; omega
        · intro j h1 h2
          simp at h1
          simp [hi, show j < b[i].length by omega]
      · have hj := List.mem_range.1 hj
        simp only [idx2, idx_lt hi, ok_bind, idx_lt (show j < b[i].length by omega), hF _ (ofInt (-1))]
        simp [show j < b[i].length by omega]
    unfold msub
    rw [hbn, ok_bind]
    have hb : 0 < b.length := by
      by_contra hc
      have : b = [] := List.length_eq_zero_iff.1 (by omega)
      subst this
      cases hb0
    refine madd_congr (by simp) ?_ ?_
    · have : b[0] = b0 := by simpa [hb] using hb0
      simp [hb, this]
    · intro b0' hb0' i hi j hj
      have hi : i < b.length := by simpa using hi
      have hb00 : b[0] = b0 := by simpa [hb] using hb0
      have hj : j < b0.length := by
        have : b0'.length = b0.length := by
          have := congrArg (Option.map List.length) hb0'
          simpa [hb, hb00] using this.symm
        omega
      have hrl := hr _ (List.getElem_mem hi)
      have hjb : j < b[i].length := by omega
      simp only [idx2]
      rw [idx_eq_ok.2 (show ((List.range b.length).map fun i => ((b.getD i []).take b0.length).map fun y => mul (ofInt (-1)) y)[i]? = some _ by simp [hi]; rfl),
        idx_eq_ok.2 (show (b.map fun x => x.map fun y => mul (ofInt (-1)) y)[i]? = some _ by simp [hi]; rfl), ok_bind, ok_bind,
        (idx_eq_ok (a := mul (ofInt (-1)) b[i][j])).2 (by simp [hi, hjb, hj]), (idx_eq_ok (a := mul (ofInt (-1)) b[i][j])).2 (by simp [hjb])]
  constructor
  · intro h
    have h' := h
    unfold msub at h'
    obtain ⟨bn, h1, h2⟩ := bind_eq_ok.1 h'
    obtain ⟨hl, a0, bn0, ha0, hbn0, -, -⟩ := madd_reads h2
    have hlb : b.length = bn.length := by simpa using (mapM_eq_ok.1 h1).length_eq
    have hb : 0 < b.length := by
      by_contra hc
      have : bn = [] := List.length_eq_zero_iff.1 (by omega)
      subst this
      cases hbn0
    have hb0 : b[0]? = some b[0] := by simp [hb]
    rw [main _ hb0 ?_] at h
    · exact h
    · intro r hr
      obtain ⟨i, hi, rfl⟩ := List.mem_iff_getElem.1 hr
      obtain ⟨w, -, hw⟩ := forall₂_pick (mapM_eq_ok.1 h1) (List.mem_range.2 hi)
      rw [idx_lt hb, ok_bind] at hw
      by_contra hc
      obtain ⟨w', -, hw'⟩ := forall₂_pick (mapM_eq_ok.1 hw) (List.mem_range.2 (show b[i].length < b[0].length by omega))
      obtain ⟨y, hy, -⟩ := bind_eq_ok.1 hw'
      unfold idx2 at hy
      rw [idx_lt hi, ok_bind] at hy
      have := idx_eq_ok.1 hy
      simp at this
  · intro h
    obtain ⟨hl, a0, B0, ha0, hB0, hl0, hr⟩ := madd_reads h
    have hb : 0 < b.length := by
      by_contra hc
      have : b = [] := List.length_eq_zero_iff.1 (by omega)
      subst this
      cases hB0
    have hb0 : b[0]? = some b[0] := by simp [hb]
    rw [main _ hb0 ?_]
    · exact h
    · intro r hr'
      obtain ⟨i, hi, rfl⟩ := List.mem_iff_getElem.1 hr'
      by_contra hc
      have hBl : B0.length = b[0].length := by
        have := congrArg (Option.map List.length) hB0
        simpa [hb] using this.symm
      obtain ⟨r, x, h1, h2⟩ := hr i (by simpa using hi) b[i].length (by omega)
      have : r.length = b[i].length := by
        have := congrArg (Option.map List.length) h1
        simpa [hi] using this.symm
      have h3 := (List.getElem?_eq_some_iff.1 h2).1
      omega

end
end MUL
