import Verif.Spec.Ragged
import Verif.Proofs.EvalSafe
import Verif.Props.Calculus
import Verif.Model.Print
/-!
# C102: which operations panic on which values
-/

namespace MUL

open Spec FArith

/-- A value or a panic, no error. -/
def ErrorFree {ε α : Type} (x : Out ε α) : Prop := x = .panic ∨ ∃ a, x = .ok a

section
variable {ε α β : Type}

theorem clean_idx (l : List α) (i : Nat) : ErrorFree (idx l i : Out ε α) := by
  unfold idx
  cases l[i]? with
  | none => exact .inl rfl
  | some a => exact .inr ⟨a, rfl⟩

theorem idx_panic (l : List α) (i : Nat) : (idx l i : Out ε α) = .panic ↔ l.length ≤ i := by
  unfold idx
  cases h : l[i]? with
  | none => simpa [Out.unwrap] using h
  | some a =>
    have := (List.getElem?_eq_some_iff.1 h).1
    simp [Out.unwrap]
    omega

theorem clean_ok (a : α) : ErrorFree (.ok a : Out ε α) := .inr ⟨a, rfl⟩

theorem clean_bind {x : Out ε α} {f : α → Out ε β} (hx : ErrorFree x) (hf : ∀ a, x = .ok a → ErrorFree (f a)) : ErrorFree (x >>= f) := by
  rcases hx with rfl | ⟨a, rfl⟩
  · exact .inl rfl
  · exact hf a rfl

theorem bind_panic (x : Out ε α) (f : α → Out ε β) : (x >>= f) = .panic ↔ x = .panic ∨ ∃ a, x = .ok a ∧ f a = .panic := by
  cases x <;> simp

theorem mapM_clean {f : α → Out ε β} (l : List α) (h : ∀ a ∈ l, ErrorFree (f a)) :
    ErrorFree (l.mapM f) ∧ (l.mapM f = .panic ↔ ∃ a ∈ l, f a = .panic) := by
  induction l with
  | nil => exact ⟨.inr ⟨[], rfl⟩, by simp⟩
  | cons a l ih =>
    obtain ⟨h1, h2⟩ := ih fun b hb => h b (by simp [hb])
    rw [List.mapM_cons]
    rcases h a (by simp) with ha | ⟨b, hb⟩
    · rw [ha]
      exact ⟨.inl rfl, by simp [ha]⟩
    · rw [hb]
      simp only [Out.ok_bind]
      refine ⟨clean_bind h1 fun c _ => clean_ok _, ?_⟩
      rw [bind_panic, h2]
      simp [hb]

theorem foldlM_clean {f : β → α → Out ε β} (l : List α) (h : ∀ s, ∀ a ∈ l, ErrorFree (f s a))
    (hs : ∀ s s' a, f s a = .panic → f s' a = .panic) (s : β) :
    ErrorFree (l.foldlM f s) ∧ (l.foldlM f s = .panic ↔ ∃ a ∈ l, f s a = .panic) := by
  induction l generalizing s with
  | nil => exact ⟨clean_ok _, by simp⟩
  | cons a l ih =>
    rw [List.foldlM_cons]
    rcases h s a (by simp) with ha | ⟨b, hb⟩
    · rw [ha]
      exact ⟨.inl rfl, by simp [ha]⟩
    · obtain ⟨h1, h2⟩ := ih (fun s b hb => h s b (by simp [hb])) b
      rw [hb]
      simp only [Out.ok_bind]
      refine ⟨h1, ?_⟩
      rw [h2]
      simp only [List.mem_cons, exists_eq_or_imp, hb, reduceCtorEq, false_or]
      exact ⟨fun ⟨c, hc, hp⟩ => ⟨c, hc, hs _ _ _ hp⟩, fun ⟨c, hc, hp⟩ => ⟨c, hc, hs _ _ _ hp⟩⟩

theorem mapM_len {f : α → Out ε β} {l : List α} {m : List β} (h : l.mapM f = .ok m) : m.length = l.length := by
  induction l generalizing m with
  | nil => cases h; rfl
  | cons a l ih =>
    rw [List.mapM_cons, Out.bind_eq_ok] at h
    obtain ⟨r, h1, h2⟩ := h
    rw [Out.bind_eq_ok] at h2
    obtain ⟨m', h3, h4⟩ := h2
    cases h4
    simp [ih h3]

theorem mapM_from {f : α → Out ε β} {l : List α} {m : List β} (h : l.mapM f = .ok m) : ∀ b ∈ m, ∃ a ∈ l, f a = .ok b := by
  induction l generalizing m with
  | nil => cases h; simp
  | cons a l ih =>
    rw [List.mapM_cons, Out.bind_eq_ok] at h
    obtain ⟨r, h1, h2⟩ := h
    rw [Out.bind_eq_ok] at h2
    obtain ⟨m', h3, h4⟩ := h2
    cases h4
    intro b hb
    rcases List.mem_cons.1 hb with rfl | hb
    · exact ⟨a, by simp, h1⟩
    · obtain ⟨a', h5, h6⟩ := ih h3 b hb
      exact ⟨a', by simp [h5], h6⟩

/-- Two look-ups and a computation. -/
theorem pair_clean {γ : Type} {x : Out ε α} {y : Out ε β} (g : α → β → γ) (hx : ErrorFree x) (hy : ErrorFree y) :
    ErrorFree (x >>= fun a => y >>= fun b => (.ok (g a b) : Out ε γ)) ∧
      ((x >>= fun a => y >>= fun b => (.ok (g a b) : Out ε γ)) = .panic ↔ x = .panic ∨ y = .panic) := by
  rcases hx with rfl | ⟨a, rfl⟩ <;> rcases hy with rfl | ⟨b, rfl⟩ <;> simp [ErrorFree]

theorem clean_idx2 (m : List (List α)) (i j : Nat) : ErrorFree (idx2 m i j : Out ε α) :=
  clean_bind (clean_idx m i) fun r _ => clean_idx r j

theorem idx2_panic (m : List (List α)) (i j : Nat) : (idx2 m i j : Out ε α) = .panic ↔ ∀ r, m[i]? = some r → r.length ≤ j := by
  unfold idx2
  cases h : m[i]? with
  | none =>
    have : (idx m i : Out ε (List α)) = .panic := by rw [idx, h]; rfl
    simp [this]
  | some r =>
    have : (idx m i : Out ε (List α)) = .ok r := by rw [idx, h]; rfl
    rw [this]
    simp [idx_panic]

end

section
variable {F : Type} [FArith F]

theorem idx_zero (m : List (List F)) (hm : m ≠ []) : (idx m 0 : Out String (List F)) = .ok (m.headD []) := by
  cases m with
  | nil => exact absurd rfl hm
  | cons r m => rfl

theorem shortRow_iff (m : List (List F)) : ShortRow m ↔ ∃ i < m.length, ∃ j < width m, (idx2 m i j : Out String F) = .panic := by
  constructor
  · rintro ⟨r, hr, h⟩
    obtain ⟨i, hi, rfl⟩ := List.getElem_of_mem hr
    refine ⟨i, hi, m[i].length, h, ?_⟩
    rw [idx2_panic]
    intro r' hr'
    rw [List.getElem?_eq_getElem hi] at hr'
    cases hr'
    exact Nat.le_refl _
  · rintro ⟨i, hi, j, hj, h⟩
    rw [idx2_panic] at h
    exact ⟨m[i], List.getElem_mem hi, Nat.lt_of_le_of_lt (h _ (List.getElem?_eq_getElem hi)) hj⟩

/-- The entries of a matrix are read one by one, as many in each row as the first row has. -/
theorem table_clean {β : Type} (m : List (List F)) (g : F → β) :
    let x : Out String (List (List β)) := (List.range m.length).mapM fun i => do
      let b0 ← idx m 0
      (List.range b0.length).mapM fun j => do
        let y ← idx2 m i j
        .ok (g y)
    ErrorFree x ∧ (x = .panic ↔ ShortRow m) ∧ ∀ t, x = .ok t → t.length = m.length ∧ width t = width m ∧ ¬ ShortRow t ∧ ∀ r ∈ t, r.length = width m := by
  intro x
  by_cases hm : m = []
  · subst hm
    have : x = .ok [] := rfl
    rw [this]
    refine ⟨clean_ok _, by simp [ShortRow], ?_⟩
    intro t ht
    cases ht
    simp [ShortRow, width]
  have hx : x = (List.range m.length).mapM fun i => (List.range (width m)).mapM fun j =>
        ((idx2 m i j : Out String F) >>= fun y => .ok (g y)) := by
    simp only [x, idx_zero m hm, Out.ok_bind]
    rfl
  have inner : ∀ i j, ErrorFree ((idx2 m i j : Out String F) >>= fun y => .ok (g y)) := fun i j =>
    clean_bind (clean_idx2 m i j) fun _ _ => clean_ok _
  have row := fun i => mapM_clean (List.range (width m)) fun j _ => inner i j
  have all := mapM_clean (List.range m.length) fun i _ => (row i).1
  rw [hx]
  refine ⟨all.1, ?_, ?_⟩
  · rw [all.2, shortRow_iff]
    simp only [List.mem_range, (row _).2, bind_panic, reduceCtorEq, and_false, exists_false, or_false]
  · intro t ht
    have hl : t.length = m.length := by
      have := mapM_len ht
      simpa using this
    have hr : ∀ r ∈ t, r.length = width m := by
      intro r hr
      obtain ⟨i, -, hi⟩ := mapM_from ht r hr
      have := mapM_len hi
      simpa using this
    have hw : width t = width m := by
      cases t with
      | nil => exfalso; apply hm; simpa using hl.symm
      | cons r t => exact hr r (by simp)
    refine ⟨hl, hw, ?_, hr⟩
    rintro ⟨r, h1, h2⟩
    rw [hr r h1, hw] at h2
    omega

theorem madd_panic (a b : List (List F)) : madd a b = .panic ↔
    a.length = b.length ∧ (a = [] ∨ width a = width b ∧ (ShortRow a ∨ ShortRow b)) := by
  unfold madd
  by_cases hl : a.length = b.length
  swap
  · simp [hl]
  rw [if_neg (by simpa using hl)]
  by_cases ha : a = []
  · subst ha
    simp [hl, idx, Out.unwrap]
  have hb : b ≠ [] := by rintro rfl; simp at hl; exact ha hl
  rw [idx_zero a ha, idx_zero b hb]
  simp only [Out.ok_bind, show (a.headD []).length = width a from rfl, show (b.headD []).length = width b from rfl]
  by_cases hw : width a = width b
  swap
  · rw [if_pos hw]
    simp [ha, hw]
  rw [if_neg (by simpa using hw)]
  have inner : ∀ i j, _ := fun i j => pair_clean (ε := String) add (clean_idx2 a i j) (clean_idx2 b i j)
  have row := fun i => mapM_clean (List.range (width a)) fun j _ => (inner i j).1
  have all := mapM_clean (List.range a.length) fun i _ => (row i).1
  rw [bind_panic]
  simp only [reduceCtorEq, and_false, exists_false, or_false]
  refine Iff.trans all.2 ?_
  simp only [List.mem_range, (row _).2, (inner _ _).2]
  constructor
  · rintro ⟨i, hi, j, hj, h | h⟩
    · exact ⟨hl, .inr ⟨hw, .inl ((shortRow_iff a).2 ⟨i, hi, j, hj, h⟩)⟩⟩
    · exact ⟨hl, .inr ⟨hw, .inr ((shortRow_iff b).2 ⟨i, hl ▸ hi, j, hw ▸ hj, h⟩)⟩⟩
  · rintro ⟨-, h | ⟨-, h | h⟩⟩
    · exact absurd h ha
    · obtain ⟨i, hi, j, hj, h⟩ := (shortRow_iff a).1 h
      exact ⟨i, hi, j, hj, .inl h⟩
    · obtain ⟨i, hi, j, hj, h⟩ := (shortRow_iff b).1 h
      exact ⟨i, hl ▸ hi, j, hw ▸ hj, .inr h⟩

theorem msub_panic (a b : List (List F)) : msub a b = .panic ↔
    ShortRow b ∨ a.length = b.length ∧ (a = [] ∨ width a = width b ∧ ShortRow a) := by
  have h := table_clean b fun y => mul y (ofInt (-1))
  unfold msub
  rw [bind_panic, h.2.1]
  refine or_congr_right' fun hs => ?_
  rcases h.1 with hp | ⟨t, ht⟩
  · exact absurd (h.2.1.1 hp) hs
  · have h3 := h.2.2 t ht
    constructor
    · rintro ⟨t', e, hp⟩
      have : t' = t := by rw [ht] at e; exact (Out.ok.inj e).symm
      subst this
      rw [madd_panic, h3.1, h3.2.1] at hp
      refine ⟨hp.1, hp.2.imp_right fun h => ⟨h.1, h.2.resolve_right h3.2.2.1⟩⟩
    · rintro ⟨h1, h2⟩
      refine ⟨t, ht, ?_⟩
      rw [madd_panic, h3.1, h3.2.1]
      exact ⟨h1, h2.imp_right fun h => ⟨h.1, .inl h.2⟩⟩

theorem smmult_panic (s : F) (b : List (List F)) : smmult s b = .panic ↔ ShortRow b := by
  have h := table_clean b fun y => mul y s
  unfold smmult
  rw [bind_panic, h.2.1]
  simp

theorem mvmult_panic (a : List (List F)) (b : List F) : mvmult a b = .panic ↔ a = [] ∨ width a = b.length ∧ LongRow a := by
  unfold mvmult
  by_cases ha : a = []
  · subst ha
    simp [idx, Out.unwrap]
  rw [idx_zero a ha]
  simp only [Out.ok_bind, ha, false_or, show (a.headD []).length = width a from rfl]
  by_cases hw : width a = b.length
  swap
  · rw [if_pos hw]
    simp [hw]
  rw [if_neg (by simpa using hw), bind_panic]
  simp only [reduceCtorEq, and_false, exists_false, or_false]
  have inner : ∀ (r : List F) (s : F) j, _ := fun r s j => pair_clean (ε := String) (fun x y => add s (mul x y)) (clean_idx r j) (clean_idx b j)
  have row := fun r : List F => foldlM_clean (List.range r.length) (fun s j _ => (inner r s j).1)
    (fun s s' j h => by rw [(inner r s j).2] at h; rw [(inner r s' j).2]; exact h) (ofInt 0)
  have rows := fun i => clean_bind (clean_idx (ε := String) a i) fun r _ => (row r).1
  have all := mapM_clean (List.range a.length) fun i _ => rows i
  refine Iff.trans all.2 ?_
  simp only [hw, true_and, List.mem_range, bind_panic, (row _).2, (inner _ _ _).2, idx_panic, LongRow]
  constructor
  · rintro ⟨i, hi, h | ⟨r, hr, j, hj, h | h⟩⟩
    · omega
    · omega
    · rw [idx_eq_ok] at hr
      exact ⟨r, List.mem_of_getElem? hr, by omega⟩
  · rintro ⟨r, hr, h⟩
    obtain ⟨i, hi, rfl⟩ := List.getElem_of_mem hr
    exact ⟨i, hi, .inr ⟨a[i], by rw [idx_eq_ok]; exact List.getElem?_eq_getElem hi, b.length, h, .inr (Nat.le_refl _)⟩⟩

theorem mmmult_panic (a b : List (List F)) : mmmult a b = .panic ↔
    a = [] ∨ width a = b.length ∧ (b = [] ∨ 0 < width b ∧ (ShortRow a ∨ ShortRow b)) := by
  unfold mmmult
  by_cases ha : a = []
  · subst ha
    simp [idx, Out.unwrap]
  rw [idx_zero a ha]
  simp only [Out.ok_bind, ha, false_or, show (a.headD []).length = width a from rfl]
  by_cases hw : width a = b.length
  swap
  · rw [if_pos hw]
    simp [hw]
  rw [if_neg (by simpa using hw), bind_panic]
  simp only [reduceCtorEq, and_false, exists_false, or_false]
  rw [and_iff_right hw]
  have hapos : 0 < a.length := List.length_pos_iff.2 ha
  by_cases hb : b = []
  · subst hb
    simp only [true_or, iff_true]
    have : ∀ i, ((do
      let b0 ← (idx ([] : List (List F)) 0 : Out String (List F))
      (List.range b0.length).mapM fun j =>
        (List.range (width a)).foldlM (fun sum k => do
          let x ← idx2 a i k
          let y ← idx2 [] k j
          .ok (add sum (mul x y))) (ofInt 0)) : Out String (List F)) = .panic := fun i => rfl
    rw [(mapM_clean _ fun i _ => .inl (this i)).2]
    exact ⟨0, by simpa using hapos, this 0⟩
  rw [idx_zero b hb]
  simp only [Out.ok_bind, hb, false_or, show (b.headD []).length = width b from rfl]
  have inner : ∀ (i j : Nat) (s : F) (k : Nat), _ := fun i j s k =>
    pair_clean (ε := String) (fun x y => add s (mul x y)) (clean_idx2 a i k) (clean_idx2 b k j)
  have cell := fun i j => foldlM_clean (List.range (width a)) (fun s k _ => (inner i j s k).1)
    (fun s s' k h => by rw [(inner i j s k).2] at h; rw [(inner i j s' k).2]; exact h) (ofInt 0)
  have row := fun i => mapM_clean (List.range (width b)) fun j _ => (cell i j).1
  have all := mapM_clean (List.range a.length) fun i _ => (row i).1
  refine Iff.trans all.2 ?_
  simp only [List.mem_range, (row _).2, (cell _ _).2, (inner _ _ _ _).2]
  constructor
  · rintro ⟨i, hi, j, hj, k, hk, h | h⟩
    · exact ⟨by omega, .inl ((shortRow_iff a).2 ⟨i, hi, k, hk, h⟩)⟩
    · exact ⟨by omega, .inr ((shortRow_iff b).2 ⟨k, by omega, j, hj, h⟩)⟩
  · rintro ⟨hp, h | h⟩
    · obtain ⟨i, hi, k, hk, h⟩ := (shortRow_iff a).1 h
      exact ⟨i, hi, 0, hp, k, hk, .inl h⟩
    · obtain ⟨k, hk, j, hj, h⟩ := (shortRow_iff b).1 h
      exact ⟨0, hapos, j, hj, k, by omega, .inr h⟩


theorem detM_panic (a : List (List F)) : detM a = .panic ↔ a = [] := by
  constructor
  · intro h
    by_contra ha
    by_cases hr : ∀ r ∈ a, r.length = width a
    · have hrect : Rect a.length (width a) a := ⟨rfl, hr⟩
      have hpos : 0 < a.length := List.length_pos_iff.2 ha
      by_cases hs : a.length = width a
      · rw [← hs] at hrect
        rw [detM_eq hpos hrect] at h
        cases h
      · rw [detM_err hpos hs hrect] at h
        cases h
    · have hne : ¬ (a.filter fun r => r.length != (a.headD []).length).length = 0 := by
        intro h0
        apply hr
        intro r hm
        by_contra hn
        have : r ∈ a.filter fun r => r.length != (a.headD []).length := by
          simp only [List.mem_filter, hm, true_and]
          simpa [width] using hn
        rw [List.length_eq_zero_iff] at h0
        rw [h0] at this
        cases this
      have h1 : a.isEmpty = false := by cases a <;> simp_all
      unfold detM at h
      rw [detFuel] at h
      simp only [h1, Bool.false_eq_true, if_false, idx_zero a ha, Out.ok_bind] at h
      rw [if_pos (by simpa using hne)] at h
      cases h
  · rintro rfl
    rfl

theorem invM_panic (a : List (List F)) : invM a = .panic ↔ a = [] := by
  constructor
  · intro h
    by_contra ha
    have hd : detM a ≠ .panic := fun hp => ha ((detM_panic a).1 hp)
    have hpos : 0 < a.length := List.length_pos_iff.2 ha
    by_cases hr : Rect a.length a.length a
    · exact (invM_post hpos hr).ne_panic h
    · have : ∃ e, detM a = .err e := by
        by_cases hr' : ∀ r ∈ a, r.length = width a
        · have hrect : Rect a.length (width a) a := ⟨rfl, hr'⟩
          have hs : a.length ≠ width a := fun he => hr ⟨rfl, fun r hm => (hr' r hm).trans he.symm⟩
          exact ⟨_, detM_err hpos hs hrect⟩
        · have hne : ¬ (a.filter fun r => r.length != (a.headD []).length).length = 0 := by
            intro h0
            apply hr'
            intro r hm
            by_contra hn
            have : r ∈ a.filter fun r => r.length != (a.headD []).length := by
              simp only [List.mem_filter, hm, true_and]
              simpa [width] using hn
            rw [List.length_eq_zero_iff] at h0
            rw [h0] at this
            cases this
          have h1 : a.isEmpty = false := by cases a <;> simp_all
          refine ⟨"Can't calculate determinant of a non-square matrix!", ?_⟩
          unfold detM
          rw [detFuel]
          simp only [h1, Bool.false_eq_true, if_false, idx_zero a ha, Out.ok_bind]
          rw [if_pos (by simpa using hne)]
      obtain ⟨e, he⟩ := this
      unfold invM at h
      rw [he] at h
      cases h
  · rintro rfl
    rfl

theorem foldlM_panic {ε α β : Type} {f : β → α → Out ε β} {Inv : β → Prop} {P : Prop}
    (h : ∀ s a, Inv s → (f s a = .panic ↔ P) ∧ ∀ t, f s a = .ok t → Inv t) (l : List α) (s : β) (hs : Inv s) :
    l.foldlM f s = .panic ↔ l ≠ [] ∧ P := by
  induction l generalizing s with
  | nil => simp
  | cons a l ih =>
    rw [List.foldlM_cons, bind_panic, (h s a hs).1]
    constructor
    · rintro (hp | ⟨t, ht, hp⟩)
      · exact ⟨by simp, hp⟩
      · exact ⟨by simp, ((ih t ((h s a hs).2 t ht)).1 hp).2⟩
    · rintro ⟨-, hp⟩
      exact .inl hp

theorem mmmult_shape {a b : List (List F)} {v : Value F} (hb : b ≠ []) (h : mmmult a b = .ok v) :
    ∃ p, v = .matrix p ∧ p.length = a.length ∧ ∀ r ∈ p, r.length = width b := by
  unfold mmmult at h
  rw [Out.bind_eq_ok] at h
  obtain ⟨a0, -, h⟩ := h
  split at h
  · cases h
  rw [Out.bind_eq_ok] at h
  obtain ⟨o, ho, h⟩ := h
  cases h
  refine ⟨o, rfl, by simpa using mapM_len ho, fun r hr => ?_⟩
  obtain ⟨i, -, hi⟩ := mapM_from ho r hr
  rw [idx_zero b hb] at hi
  have := mapM_len hi
  rw [List.length_range] at this
  exact this

theorem mspow_panic (a : List (List F)) (k : F) : mspow a k = .panic ↔
    beq (round k) k = true ∧ 0 < toI32 k ∧ (a = [] ∨ a.length = width a ∧ ShortRow a) := by
  unfold mspow
  cases hk : beq (round k) k with
  | false => simp
  | true =>
    simp only [Bool.not_true, Bool.false_eq_true, if_false, true_and]
    by_cases ha : a = []
    · subst ha
      simp only [List.length_nil, List.range_zero, List.mapM_nil, Out.pure_eq, Out.ok_bind, true_or, and_true]
      rw [bind_panic]
      simp only [reduceCtorEq, and_false, exists_false, or_false]
      have := foldlM_panic (ε := String) (f := fun (mult : List (List F)) (_ : Nat) => do
        let p ← mmmult mult []
        Out.unwrap p.getMatrix) (Inv := fun m => m = []) (P := True)
        (by rintro s n rfl; exact ⟨⟨fun _ => trivial, fun _ => rfl⟩, nofun⟩) (List.range (toI32 k).toNat) [] rfl
      rw [this]
      simp only [ne_eq, List.range_eq_nil, and_true]
      omega
    · simp only [idx_zero a ha, Out.ok_bind, show (a.headD []).length = width a from rfl]
      have hst : ((List.range a.length).mapM fun i =>
          (.ok ((List.range (width a)).map fun j => if i = j then (ofInt 1 : F) else ofInt 0) : Out String (List F))) =
          .ok ((List.range a.length).map fun i => (List.range (width a)).map fun j => if i = j then (ofInt 1 : F) else ofInt 0) := by
        generalize List.range a.length = l
        induction l with
        | nil => rfl
        | cons x l ih => rw [List.mapM_cons, ih]; rfl
      rw [hst]
      simp only [Out.ok_bind, ha, false_or]
      rw [bind_panic]
      simp only [reduceCtorEq, and_false, exists_false, or_false]
      have hpos : 0 < a.length := List.length_pos_iff.2 ha
      have := foldlM_panic (ε := String) (f := fun (mult : List (List F)) (_ : Nat) => do
        let p ← mmmult mult a
        Out.unwrap p.getMatrix) (Inv := fun m => m.length = a.length ∧ ∀ r ∈ m, r.length = width a)
        (P := a.length = width a ∧ ShortRow a) (by
          rintro s n ⟨h1, h2⟩
          have hs : s ≠ [] := by rintro rfl; simp at h1; omega
          have hw : width s = width a := by
            cases s with
            | nil => exact absurd rfl hs
            | cons r s => exact h2 r (by simp)
          have hns : ¬ ShortRow s := by
            rintro ⟨r, hr, hlt⟩
            rw [h2 r hr, hw] at hlt
            omega
          constructor
          · rw [bind_panic, mmmult_panic]
            constructor
            · rintro (h | ⟨v, hv, hp⟩)
              · rcases h with h | ⟨h, h' | ⟨-, h' | h'⟩⟩
                · exact absurd h hs
                · exact absurd h' ha
                · exact absurd h' hns
                · exact ⟨by omega, h'⟩
              · obtain ⟨p, rfl, -, -⟩ := mmmult_shape ha hv
                cases hp
            · rintro ⟨h3, h4⟩
              exact .inl (.inr ⟨by omega, .inr ⟨by omega, .inr h4⟩⟩)
          · intro t ht
            rw [Out.bind_eq_ok] at ht
            obtain ⟨v, hv, ht⟩ := ht
            obtain ⟨p, rfl, h3, h4⟩ := mmmult_shape ha hv
            cases ht
            exact ⟨by omega, h4⟩) (List.range (toI32 k).toNat)
        ((List.range a.length).map fun i => (List.range (width a)).map fun j => if i = j then (ofInt 1 : F) else ofInt 0)
        ⟨by simp, by simp⟩
      rw [this]
      simp only [ne_eq, List.range_eq_nil]
      refine and_congr_left fun _ => ?_
      omega

end

section
variable {F : Type} [FNum F]

theorem lift_panic {α : Type} (x : Out String α) : liftMath x = .panic ↔ x = .panic := by
  cases x <;> simp [liftMath, Out.mapErr]

theorem one_panic (x : Out String (Value F)) :
    (liftMath x >>= fun v => (.ok [v] : Out EvalError (List (Value F)))) = .panic ↔ x = .panic := by
  rw [bind_panic, lift_panic]
  simp

theorem never_panics {P : Value F → Prop} {x : Out String (Value F)} (h : Out.Safe P x) : x = .panic ↔ False := by
  simp only [iff_false]
  exact h.ne_panic

theorem lift_ok {α : Type} {x : Out String α} {v : α} (h : liftMath x = .ok v) : x = .ok v := by
  cases x <;> simp_all [liftMath, Out.mapErr]

theorem madd_ok {a b : List (List F)} {v : Value F} (h : madd a b = .ok v) : a.length = b.length ∧ width a = width b := by
  unfold madd at h
  split at h
  · cases h
  rename_i hl
  have hl' : a.length = b.length := by simpa using hl
  rw [Out.bind_eq_ok] at h
  obtain ⟨a0, h1, h⟩ := h
  rw [Out.bind_eq_ok] at h
  obtain ⟨b0, h2, h⟩ := h
  split at h
  · cases h
  rename_i hw
  refine ⟨hl', ?_⟩
  cases a with
  | nil => cases h1
  | cons r a =>
    cases b with
    | nil => cases h2
    | cons r' b =>
      cases h1
      cases h2
      simpa [width] using hw

theorem vadd_no_panic (a b : List F) : vadd a b ≠ .panic := by
  unfold vadd
  split
  · exact nofun
  · rename_i hl
    have inner : ∀ i, _ := fun i => pair_clean (ε := String) add (clean_idx a i) (clean_idx b i)
    have all := mapM_clean (List.range a.length) fun i _ => (inner i).1
    rw [Ne, bind_panic]
    rintro (h | ⟨o, -, h⟩)
    · obtain ⟨i, hi, h⟩ := all.2.1 h
      rw [(inner i).2, idx_panic, idx_panic] at h
      simp at hi
      omega
    · cases h

/-- **C102**: exactly which operations panic on which values, whatever their entries and shapes. -/
theorem C102_panics (op : SimpleOp) (i j : Value F) : applyOp op i j = .panic ↔ Panics op i j := by
  cases op <;> simp only [applyOp, one_panic]
  case get =>
    cases i <;> cases j <;> simp only [vGet, Panics, reduceCtorEq]
    rename_i a b
    cases h1 : beq (rem b (ofInt 1)) (ofInt 0) <;> cases h2 : isSignNeg b <;> simp
    constructor
    · intro h
      by_contra ha
      replace h := h ha
      split at h
      · cases h
      · rename_i hlt
        rw [bind_panic, idx_panic] at h
        have := List.length_pos_iff.2 ha
        rcases h with h | ⟨_, _, h⟩
        · omega
        · cases h
    · rintro rfl h
      exact absurd rfl h
  case add =>
    cases i <;> cases j <;> simp only [vAdd, Panics, reduceCtorEq, sadd, madd_panic, vadd_no_panic]
  case sub =>
    cases i <;> cases j <;> simp only [vSub, Panics, reduceCtorEq, sadd, msub_panic, vsub, vadd_no_panic]
  case addSub =>
    rw [bind_panic, lift_panic]
    have hsub : ∀ a, (liftMath (vSub i j) >>= fun b => (.ok [a, b] : Out EvalError (List (Value F)))) = .panic ↔ vSub i j = .panic := by
      intro a
      rw [bind_panic, lift_panic]
      simp
    simp only [hsub]
    cases i <;> cases j <;> simp only [vAdd, vSub, Panics, reduceCtorEq, sadd, madd_panic, msub_panic, vsub, vadd_no_panic, or_false, and_false, exists_false, false_or]
    rename_i a b
    refine or_iff_left_of_imp ?_
    rintro ⟨v, hv, h | h⟩
    · obtain ⟨h1, h2⟩ := madd_ok (lift_ok hv)
      exact ⟨h1, .inr ⟨h2, .inr h⟩⟩
    · exact ⟨h.1, h.2.imp_right fun h => ⟨h.1, .inl h.2⟩⟩
  case mult =>
    cases i <;> cases j <;> simp only [vMult, Panics, reduceCtorEq, ssmult, svmult, smmult_panic, mmmult_panic, mvmult_panic, never_panics (vvmult_safe _ _)]
  case hiddenMult =>
    cases i <;> cases j <;> simp only [vMult, Panics, reduceCtorEq, ssmult, svmult, smmult_panic, mmmult_panic, mvmult_panic, never_panics (vvmult_safe _ _)]
  case div =>
    cases i <;> cases j <;> simp only [vDiv, Panics, reduceCtorEq, ssdiv, vsdiv, svmult, msdiv, smmult_panic, never_panics (vvdiv_safe _ _)]
  case cross => simp only [never_panics (vCross_safe _ _), Panics]
  case pow =>
    cases i <;> cases j <;> simp only [vPow, Panics, reduceCtorEq, mspow_panic]
  case det =>
    cases i <;> simp only [vDet, Panics, reduceCtorEq, detM_panic]
  case inv =>
    cases i <;> simp only [vInv, Panics, reduceCtorEq, invM_panic]
  case neg => cases j <;> simp [vNeg, Panics]
  case abs => cases i <;> simp [vAbs, Panics] <;> split <;> simp
  case root => cases i <;> cases j <;> simp [vRoot, Panics]
  all_goals cases i <;> simp [Panics, vSin, vCos, vTan, vArcsin, vArccos, vArctan, vSqrt, vLn]

/-- **C102**: no operation panics on values as the library makes them: vectors and matrices that are not empty, rows of
equal length. -/
theorem C102_well_formed (op : SimpleOp) (i j : Value F) (hi : WFValue i) (hj : WFValue j) : ¬ Panics op i j := by
  rw [← C102_panics]
  exact (applyOp_safe op hi hj).ne_panic

/-- **C102** (evaluation): an operation on two variables, each with one value, panics exactly then. -/
theorem C102_eval (cfg : Cfg) (ctx : Context F) (op : SimpleOp) (x y : Str) (i j : Value F) (n : Nat)
    (hx : ctx.findVar x = some [i]) (hy : ctx.findVar y = some [j]) :
    eval cfg (n + 2) (.simple op (.variable x) (.variable y)) ctx = .panic ↔ Panics op i j := by
  rw [← C102_panics, ← applyAll_single, eval, evalRec]
  simp only [evalRec, hx, hy, Out.ok_bind]

/-- **C102**: a value is printed with unicode symbols, or this panics: exactly for the empty vector, and for a matrix
without rows, with an empty first row or with a row shorter than the first. -/
theorem C102_unicode (cfg : Cfg) (v : Value F) (name : Option Str) :
    (v.prettyPrint cfg name : Out String Str) = .panic ↔
      match v with
      | .scalar _ => False
      | .vector l => l = []
      | .matrix m => m = [] ∨ width m = 0 ∨ ShortRow m := by
  have mu : ∀ l : List Nat, ErrorFree (Value.maxUnwrap l : Out String Nat) ∧ ((Value.maxUnwrap l : Out String Nat) = .panic ↔ l = []) := by
    intro l
    cases l with
    | nil => exact ⟨.inl rfl, by simp [Value.maxUnwrap]⟩
    | cons n l => exact ⟨clean_ok _, by simp [Value.maxUnwrap]⟩
  unfold Value.prettyPrint
  cases v with
  | scalar s => simp
  | vector l =>
    simp only [bind_panic, (mu _).2, List.map_map, List.map_eq_nil_iff, reduceCtorEq, and_false, exists_false, or_false]
  | matrix m =>
    have h := table_clean m fun x => roundAndFormat cfg x false
    simp only [idx2, bind_assoc] at h
    simp only
    rw [bind_panic, h.2.1]
    by_cases hs : ShortRow m
    · simp [hs]
    simp only [hs, false_or, or_false]
    obtain ⟨t, ht⟩ := h.1.resolve_left fun hp => hs (h.2.1.1 hp)
    obtain ⟨h1, h2, -, h3⟩ := h.2.2 t ht
    have hw := mapM_clean t (f := fun r => (Value.maxUnwrap (r.map byteLen) : Out String Nat)) fun r _ => (mu _).1
    have key : ∀ g : List Nat → Nat → Str, ((t.mapM (fun r => (Value.maxUnwrap (r.map byteLen) : Out String Nat)) >>= fun widths =>
        Value.maxUnwrap widths >>= fun w => (.ok (g widths w) : Out String Str)) = .panic ↔ m = [] ∨ width m = 0) := by
      intro g
      rw [bind_panic, hw.2]
      simp only [(mu _).2, List.map_eq_nil_iff, bind_panic, reduceCtorEq, and_false, exists_false, or_false]
      constructor
      · rintro (⟨r, hr, rfl⟩ | ⟨ws, hws, rfl⟩)
        · right
          rw [← h3 [] hr]
          rfl
        · left
          have := mapM_len hws
          rw [h1] at this
          exact List.length_eq_zero_iff.1 this.symm
      · rintro (rfl | hz)
        · right
          have : t = [] := List.length_eq_zero_iff.1 h1
          subst this
          exact ⟨[], rfl, rfl⟩
        · by_cases hm : t = []
          · subst hm
            exact .inr ⟨[], rfl, rfl⟩
          · left
            obtain ⟨r, t', rfl⟩ := List.exists_cons_of_ne_nil hm
            exact ⟨r, by simp, List.length_eq_zero_iff.1 ((h3 r (by simp)).trans hz)⟩
    constructor
    · rintro ⟨t', ht', hp⟩
      have : t' = t := by rw [ht] at ht'; exact (Out.ok.inj ht').symm
      subst this
      exact (key _).1 hp
    · intro hp
      exact ⟨t, ht, (key _).2 hp⟩

/-- Non-vacuity: operands that make the operations panic, and operands of unusual shapes that do not. -/
theorem C102_example (x : F) :
    Panics .add (.matrix [[x, x], [x]]) (.matrix [[x, x], [x, x]]) ∧
    applyOp .mult (.matrix [[x, x], [x]]) (.vector [x, x]) ≠ .panic ∧
    Panics .mult (.matrix [[x], [x, x]]) (.vector [x]) ∧
    applyOp .add (.matrix [[x], [x, x]]) (.matrix [[x], [x]]) ≠ .panic ∧
    Panics .inv (.matrix ([] : List (List F))) (.scalar x) := by
  refine ⟨⟨rfl, .inr ⟨rfl, .inl ⟨[x], by simp, by simp [width]⟩⟩⟩, ?_, .inr ⟨rfl, ⟨[x, x], by simp, by simp [width]⟩⟩, ?_, rfl⟩
  · rw [Ne, C102_panics]
    simp [Panics, LongRow, width]
  · rw [Ne, C102_panics]
    simp [Panics, ShortRow, width]

end

end MUL
