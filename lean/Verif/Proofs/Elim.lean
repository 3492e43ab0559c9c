import Verif.Proofs.ArithExact
import Mathlib.Algebra.BigOperators.Intervals
import Mathlib.LinearAlgebra.Matrix.NonsingularInverse
import Mathlib.Tactic.Linarith
import Mathlib.Tactic.FieldSimp
import Mathlib.Tactic.Ring
/-!
# Gaussian elimination as the code does it (no pivoting), in exact arithmetic

If the last column of the eliminated matrix is finite then every entry was finite all the time, every
pivot was non-zero and every step was a row operation.
-/

set_option linter.unusedSectionVars false

namespace MUL
open Out FArith

section
variable {F : Type} [FArith F] {K : Type} [Field K] [LinearOrder K] [IsStrictOrderedRing K] [FloorRing K] [Exact F K]

/-- The number in row `i`, column `k`, if there is one. -/
def ent (v : List (List F)) (i k : Nat) : Option K := (v[i]?.bind (·[k]?)).bind Exact.val

/-- All entries are finite and given by `f`. -/
def Ent (n w : Nat) (v : List (List F)) (f : Nat → Nat → K) : Prop :=
  Rect n w v ∧ ∀ i < n, ∀ k < w, ent v i k = some (f i k)

theorem val_nan_none {a : F} (h : isNaN a = true) : (Exact.val a : Option K) = none := by
  have := Exact.finite_iff (K := K) a
  rw [h, Bool.or_true] at this
  simpa using this.symm

/-- `x - y/(p/q)` in exact arithmetic. -/
theorem elim_val {p q x y : F} {p' q' x' y' : K} (hp : Exact.val p = some p') (hq : Exact.val q = some q')
    (hx : Exact.val x = some x') (hy : Exact.val y = some y') (hp0 : p' ≠ 0) :
    Exact.val (sub x (div y (div p q))) = some (x' - q' / p' * y') := by
  refine Exact.val_sub hx ?_
  by_cases hq0 : q' = 0
  · subst hq0
    rw [Exact.val_div_inf hy (Exact.div_zero_inf hp hp0 hq)]
    simp
  · rw [Exact.val_div hy (Exact.val_div hp hq hq0) (div_ne_zero hp0 hq0)]
    congr 1
    field_simp

theorem elim_zero {p q x y : F} {q' : K} (hp : Exact.val p = some (0 : K)) (hq : Exact.val q = some q') :
    (Exact.val (sub x (div y (div p q))) : Option K) = none := by
  refine Exact.sub_none (Or.inr ?_)
  by_cases hq0 : q' = 0
  · subst hq0
    exact val_nan_none (Exact.div_nan (Or.inr (Exact.div_zero_nan hp hq)))
  · refine Exact.div_none (Or.inr ?_)
    rw [Exact.val_div hp hq hq0, zero_div]

/-- What one step does to the entries. -/
theorem elimStep_ent {ε : Type} {zl : ε} {n w : Nat} {v v' : List (List F)} (hv : Rect n w v) {i j : Nat} (hi : i < n) (hj : j < n)
    (hw : i < w) (h : elimStep zl v (i, j) = .ok v') :
    ∃ (p q : F), (v[i]?.bind (·[i]?)) = some p ∧ (v[j]?.bind (·[i]?)) = some q ∧
      (∀ a, a ≠ j → v'[a]? = v[a]?) ∧
      ∀ k, k < w → ∃ x y, (v[j]?.bind (·[k]?)) = some x ∧ (v[i]?.bind (·[k]?)) = some y ∧
        (v'[j]?.bind (·[k]?)) = some (if k < i then x else sub x (div y (div p q))) := by
  obtain ⟨hi', hj', hwi, hwj, he⟩ := elimStep_eq zl hv hi hj hw
  rw [he] at h
  split at h
  · cases h
  · injection h with h
    subst h
    have hli : v[i].length = w := hv.2 _ (List.getElem_mem _)
    have hlj : v[j].length = w := hv.2 _ (List.getElem_mem _)
    refine ⟨v[i][i], v[j][i], by simp [hi', hwi], by simp [hj', hwj], ?_, ?_⟩
    · intro a ha
      rw [List.getElem?_set_ne (fun h => ha h.symm)]
    · intro k hk
      refine ⟨v[j][k]'(by omega), v[i][k]'(by omega), by simp [hj', hlj, hk], by simp [hi', hli, hk], ?_⟩
      rw [List.getElem?_set_self hj']
      simp only [Option.bind_some, elimRow]
      rw [List.getElem?_zipWith]
      simp [hlj, hli, hk]

theorem elimStep_rect {ε : Type} {zl : ε} {n w : Nat} {v v' : List (List F)} (hv : Rect n w v) {i j : Nat} (hi : i < n) (hj : j < n)
    (hw : i < w) (h : elimStep zl v (i, j) = .ok v') : Rect n w v' :=
  (elimStep_post zl hv hi hj hw).of_ok h

/-- A finite entry was finite before the step. -/
theorem elimStep_back {ε : Type} {zl : ε} {n w : Nat} {v v' : List (List F)} (hv : Rect n w v) {i j : Nat} (hi : i < n) (hj : j < n)
    (hw : i < w) (h : elimStep zl v (i, j) = .ok v') {a k : Nat} (hk : k < w) (hf : (ent v' a k : Option K) ≠ none) :
    (ent v a k : Option K) ≠ none := by
  obtain ⟨p, q, hp, hq, h1, h2⟩ := elimStep_ent hv hi hj hw h
  by_cases ha : a = j
  · subst ha
    obtain ⟨x, y, hx, hy, hxy⟩ := h2 k hk
    unfold ent at hf ⊢
    rw [hxy] at hf
    rw [hx]
    intro hn
    apply hf
    simp only [Option.bind_some] at hn ⊢
    split
    · exact hn
    · exact Exact.sub_none (Or.inl hn)
  · unfold ent at hf ⊢
    rwa [h1 a ha] at hf

/-- The effect of eliminating rows `i+1 … i+t` with row `i`. -/
def outerT (i t : Nat) (f : Nat → Nat → K) : Nat → Nat → K := fun a k =>
  if i < a ∧ a < i + 1 + t ∧ i ≤ k then f a k - f a i / f i i * f i k else f a k

theorem elimStep_fwd {ε : Type} {zl : ε} {n w : Nat} {v v' : List (List F)} {f : Nat → Nat → K} (hv : Ent n w v f) {i j : Nat}
    (hi : i < n) (hj : j < n) (hw : i < w) (h : elimStep zl v (i, j) = .ok v') (hf : (ent v' j (w - 1) : Option K) ≠ none) :
    f i i ≠ 0 ∧ Ent n w v' (fun a k => if a = j ∧ i ≤ k then f a k - f a i / f i i * f i k else f a k) := by
  obtain ⟨p, q, hp, hq, h1, h2⟩ := elimStep_ent hv.1 hi hj hw h
  have hp' : Exact.val p = some (f i i) := by
    have := hv.2 i hi i hw
    unfold ent at this
    rwa [hp] at this
  have hq' : Exact.val q = some (f j i) := by
    have := hv.2 j hj i hw
    unfold ent at this
    rwa [hq] at this
  have hpos : f i i ≠ 0 := by
    intro h0
    obtain ⟨x, y, hx, hy, hxy⟩ := h2 (w - 1) (by omega)
    apply hf
    unfold ent
    rw [hxy, if_neg (by omega)]
    rw [h0] at hp'
    exact elim_zero hp' hq'
  refine ⟨hpos, elimStep_rect hv.1 hi hj hw h, ?_⟩
  intro a ha k hk
  by_cases haj : a = j
  · subst haj
    obtain ⟨x, y, hx, hy, hxy⟩ := h2 k hk
    have hx' : Exact.val x = some (f a k) := by
      have := hv.2 a ha k hk
      unfold ent at this
      rwa [hx] at this
    have hy' : Exact.val y = some (f i k) := by
      have := hv.2 i hi k hk
      unfold ent at this
      rwa [hy] at this
    unfold ent
    rw [hxy]
    show _ = some (if a = a ∧ i ≤ k then f a k - f a i / f i i * f i k else f a k)
    by_cases hik : i ≤ k
    · rw [if_pos (c := a = a ∧ i ≤ k) ⟨rfl, hik⟩, if_neg (c := k < i) (by omega)]
      exact elim_val hp' hq' hx' hy' hpos
    · rw [if_neg (c := a = a ∧ i ≤ k) (fun h => hik h.2), if_pos (c := k < i) (by omega)]
      exact hx'
  · show _ = some (if a = j ∧ i ≤ k then f a k - f a i / f i i * f i k else f a k)
    rw [if_neg (c := a = j ∧ i ≤ k) (fun h => haj h.1)]
    unfold ent
    rw [h1 a haj]
    exact hv.2 a ha k hk

theorem bind_pure' {ε α : Type} (x : Out ε α) : (x >>= fun a => pure a) = x := by cases x <;> rfl

/-- The loop over `j` for a fixed `i`. -/
def innerLoop {ε : Type} (zl : ε) (i t : Nat) (v : List (List F)) : Out ε (List (List F)) :=
  ((List.range' (i + 1) t).map fun j => (i, j)).foldlM (elimStep zl) v

theorem innerLoop_succ {ε : Type} (zl : ε) (i t : Nat) (v : List (List F)) :
    innerLoop zl i (t + 1) v = innerLoop zl i t v >>= fun v' => elimStep zl v' (i, i + 1 + t) := by
  unfold innerLoop
  rw [List.range'_1_concat, List.map_append, List.foldlM_append]
  congr 1
  funext v'
  simp only [List.map_cons, List.map_nil, List.foldlM_cons, List.foldlM_nil]
  exact bind_pure' _

theorem innerLoop_rect {ε : Type} {zl : ε} {n w : Nat} {v v' : List (List F)} (hv : Rect n w v) {i t : Nat} (ht : i + 1 + t ≤ n)
    (hw : i < w) (h : innerLoop zl i t v = .ok v') : Rect n w v' := by
  induction t generalizing v' with
  | zero => cases h; exact hv
  | succ t ih =>
    rw [innerLoop_succ] at h
    obtain ⟨u, hu, h⟩ := bind_eq_ok.1 h
    exact elimStep_rect (ih (by omega) hu) (by omega) (by omega) hw h

theorem innerLoop_back {ε : Type} {zl : ε} {n w : Nat} {v v' : List (List F)} (hv : Rect n w v) {i t : Nat} (ht : i + 1 + t ≤ n)
    (hw : i < w) (h : innerLoop zl i t v = .ok v') {a k : Nat} (hk : k < w) (hf : (ent v' a k : Option K) ≠ none) :
    (ent v a k : Option K) ≠ none := by
  induction t generalizing v' with
  | zero => cases h; exact hf
  | succ t ih =>
    rw [innerLoop_succ] at h
    obtain ⟨u, hu, h⟩ := bind_eq_ok.1 h
    exact ih (by omega) hu (elimStep_back (innerLoop_rect hv (by omega) hw hu) (by omega) (by omega) hw h hk hf)

theorem innerLoop_fwd {ε : Type} {zl : ε} {n w : Nat} {v v' : List (List F)} {f : Nat → Nat → K} (hv : Ent n w v f) {i t : Nat}
    (ht : i + 1 + t ≤ n) (hw : i < w) (h : innerLoop zl i t v = .ok v') (hf : ∀ a < n, (ent v' a (w - 1) : Option K) ≠ none) :
    (0 < t → f i i ≠ 0) ∧ Ent n w v' (outerT i t f) := by
  induction t generalizing v' with
  | zero =>
    cases h
    refine ⟨fun h => absurd h (by omega), hv.1, ?_⟩
    intro a ha k hk
    rw [hv.2 a ha k hk, outerT, if_neg (by omega)]
  | succ t ih =>
    rw [innerLoop_succ] at h
    obtain ⟨u, hu, h⟩ := bind_eq_ok.1 h
    have hr := innerLoop_rect hv.1 (by omega) hw hu
    obtain ⟨_, h2⟩ := ih (by omega) hu fun a ha => elimStep_back hr (by omega) (by omega) hw h (by omega) (hf a ha)
    obtain ⟨h3, h4⟩ := elimStep_fwd h2 (by omega) (by omega) hw h (hf _ (by omega))
    have hii : outerT i t f i i = f i i := by rw [outerT, if_neg (by omega)]
    have hik : ∀ k, outerT i t f i k = f i k := fun k => by rw [outerT, if_neg (by omega)]
    rw [hii] at h3
    refine ⟨fun _ => h3, h4.1, ?_⟩
    intro a ha k hk
    rw [h4.2 a ha k hk]
    congr 1
    show (if a = i + 1 + t ∧ i ≤ k then outerT i t f a k - outerT i t f a i / outerT i t f i i * outerT i t f i k
      else outerT i t f a k) = _
    by_cases haj : a = i + 1 + t
    · subst haj
      have hj : ∀ k, outerT i t f (i + 1 + t) k = f (i + 1 + t) k := fun k => by rw [outerT, if_neg (by omega)]
      by_cases hk' : i ≤ k
      · rw [if_pos ⟨rfl, hk'⟩, hj, hj, hii, hik]
        unfold outerT
        rw [if_pos (by omega)]
      · rw [if_neg (fun h => hk' h.2), hj]
        unfold outerT
        rw [if_neg (by omega)]
    · rw [if_neg (fun h => haj h.1)]
      unfold outerT
      by_cases hc : i < a ∧ a < i + 1 + t ∧ i ≤ k
      · rw [if_pos hc, if_pos (by omega)]
      · rw [if_neg hc, if_neg (by omega)]

/-- The outer loop, `m` iterations. -/
def outerLoop {ε : Type} (zl : ε) (n m : Nat) (v : List (List F)) : Out ε (List (List F)) :=
  (List.range m).foldlM (fun v i => innerLoop zl i (n - (i + 1)) v) v

theorem foldlM_flatMap' {ε α β γ : Type} (g : α → List β) (f : γ → β → Out ε γ) (l : List α) (b : γ) :
    (l.flatMap g).foldlM f b = l.foldlM (fun b a => (g a).foldlM f b) b := by
  induction l generalizing b with
  | nil => rfl
  | cons a l ih =>
    rw [List.flatMap_cons, List.foldlM_append, List.foldlM_cons]
    congr 1
    funext b'
    exact ih b'

theorem eliminate_eq {ε : Type} (zl : ε) (v : List (List F)) : eliminate zl v = outerLoop zl v.length (v.length - 1) v := by
  unfold eliminate elimPairs outerLoop innerLoop
  rw [foldlM_flatMap']

theorem outerLoop_succ {ε : Type} (zl : ε) (n m : Nat) (v : List (List F)) :
    outerLoop zl n (m + 1) v = outerLoop zl n m v >>= fun v' => innerLoop zl m (n - (m + 1)) v' := by
  unfold outerLoop
  rw [List.range_succ, List.foldlM_append]
  congr 1
  funext v'
  simp only [List.map_cons, List.map_nil, List.foldlM_cons, List.foldlM_nil]
  exact bind_pure' _

/-- `m` iterations of the elimination on exact entries, all pivots being non-zero. -/
inductive Steps (n : Nat) : Nat → (Nat → Nat → K) → (Nat → Nat → K) → Prop
  | zero (f) : Steps n 0 f f
  | succ (m f f') : Steps n m f f' → f' m m ≠ 0 → Steps n (m + 1) f (outerT m (n - (m + 1)) f')

theorem outerLoop_rect {ε : Type} {zl : ε} {n w m : Nat} {v v' : List (List F)} (hv : Rect n w v) (hm : m ≤ n - 1) (hw : n ≤ w)
    (h : outerLoop zl n m v = .ok v') : Rect n w v' := by
  induction m generalizing v' with
  | zero => cases h; exact hv
  | succ m ih =>
    rw [outerLoop_succ] at h
    obtain ⟨u, hu, h⟩ := bind_eq_ok.1 h
    exact innerLoop_rect (ih (by omega) hu) (by omega) (by omega) h

theorem outerLoop_back {ε : Type} {zl : ε} {n w m : Nat} {v v' : List (List F)} (hv : Rect n w v) (hm : m ≤ n - 1) (hw : n ≤ w)
    (h : outerLoop zl n m v = .ok v') {a k : Nat} (hk : k < w) (hf : (ent v' a k : Option K) ≠ none) :
    (ent v a k : Option K) ≠ none := by
  induction m generalizing v' with
  | zero => cases h; exact hf
  | succ m ih =>
    rw [outerLoop_succ] at h
    obtain ⟨u, hu, h⟩ := bind_eq_ok.1 h
    exact ih (by omega) hu (innerLoop_back (outerLoop_rect hv (by omega) hw hu) (by omega) (by omega) h hk hf)

theorem outerLoop_fwd {ε : Type} {zl : ε} {n w m : Nat} {v v' : List (List F)} {f : Nat → Nat → K} (hv : Ent n w v f)
    (hm : m ≤ n - 1) (hw : n ≤ w) (h : outerLoop zl n m v = .ok v') (hf : ∀ a < n, (ent v' a (w - 1) : Option K) ≠ none) :
    ∃ f', Steps n m f f' ∧ Ent n w v' f' := by
  induction m generalizing v' with
  | zero => cases h; exact ⟨f, .zero f, hv⟩
  | succ m ih =>
    rw [outerLoop_succ] at h
    obtain ⟨u, hu, h⟩ := bind_eq_ok.1 h
    have hr := outerLoop_rect hv.1 (by omega) hw hu
    obtain ⟨f', h1, h2⟩ := ih (by omega) hu fun a ha => innerLoop_back hr (by omega) (by omega) h (by omega) (hf a ha)
    obtain ⟨h3, h4⟩ := innerLoop_fwd h2 (by omega) (by omega) h hf
    exact ⟨_, .succ m f f' h1 (h3 (by omega)), h4⟩

/-- **The whole elimination.** -/
theorem eliminate_exact {ε : Type} {zl : ε} {n w : Nat} {v v' : List (List F)} {f : Nat → Nat → K} (hv : Ent n w v f)
    (hw : n ≤ w) (h : eliminate zl v = .ok v') (hf : ∀ a < n, (ent v' a (w - 1) : Option K) ≠ none) :
    ∃ f', Steps n (n - 1) f f' ∧ Ent n w v' f' := by
  rw [eliminate_eq, hv.1.1] at h
  exact outerLoop_fwd hv (le_refl _) hw h hf

theorem eliminate_back {ε : Type} {zl : ε} {n w : Nat} {v v' : List (List F)} (hv : Rect n w v)
    (hw : n ≤ w) (h : eliminate zl v = .ok v') {a k : Nat} (hk : k < w) (hf : (ent v' a k : Option K) ≠ none) :
    (ent v a k : Option K) ≠ none := by
  rw [eliminate_eq, hv.1] at h
  exact outerLoop_back hv (le_refl _) hw h hk hf

theorem eliminate_rect {ε : Type} {zl : ε} {n w : Nat} {v v' : List (List F)} (hv : Rect n w v)
    (hw : n ≤ w) (h : eliminate zl v = .ok v') : Rect n w v' := by
  rw [eliminate_eq, hv.1] at h
  exact outerLoop_rect hv (le_refl _) hw h

/-! ## Algebra of the steps -/

section algebra
variable {n m : Nat} {f f' : Nat → Nat → K}

theorem Steps.upper (h : Steps n m f f') : ∀ c < m, ∀ a < n, c < a → f' a c = 0 := by
  induction h with
  | zero => intro c hc; omega
  | succ m f f' h hp ih =>
    intro c hc a ha hca
    unfold outerT
    by_cases hcm : c = m
    · subst hcm
      rw [if_pos (by omega)]
      field_simp
      ring
    · have h0 : f' a c = 0 := ih c (by omega) a ha hca
      rw [if_neg (by omega), h0]

theorem Steps.pivot (h : Steps n m f f') : ∀ c < m, f' c c ≠ 0 := by
  induction h with
  | zero => intro c hc; omega
  | succ m f f' h hp ih =>
    intro c hc
    unfold outerT
    rw [if_neg (by omega)]
    by_cases hcm : c = m
    · subst hcm; exact hp
    · exact ih c (by omega)

/-- Each iteration subtracts a multiple of row `m` from the rows below. -/
theorem outer_row (hu : ∀ c < m, ∀ a < n, c < a → f a c = 0) (hm : m < n) (a : Nat) :
    outerT m (n - (m + 1)) f a = if m < a ∧ a < n then f a - (f a m / f m m) • f m else f a := by
  funext k
  unfold outerT
  by_cases hk : m ≤ k
  · by_cases ha : m < a ∧ a < n
    · rw [if_pos (by omega), if_pos ha]; rfl
    · rw [if_neg (by omega), if_neg ha]
  · rw [if_neg (by omega)]
    by_cases ha : m < a ∧ a < n
    · rw [if_pos ha]
      simp [hu k (by omega) m hm (by omega)]
    · rw [if_neg ha]

theorem Steps.forward (h : Steps n m f f') (hm : m ≤ n) (P : (Nat → K) → Prop) (hP : ∀ (r s : Nat → K) (c : K), P r → P s → P (r - c • s))
    (h0 : ∀ a < n, P (f a)) : ∀ a < n, P (f' a) := by
  induction h with
  | zero => exact h0
  | succ m f f' h hp ih =>
    intro a ha
    rw [outer_row h.upper (by omega) a]
    split
    · exact hP _ _ _ (ih (by omega) h0 a ha) (ih (by omega) h0 m (by omega))
    · exact ih (by omega) h0 a ha

theorem Steps.backward (h : Steps n m f f') (hm : m ≤ n) (P : (Nat → K) → Prop) (hP : ∀ (r s : Nat → K) (c : K), P r → P s → P (r + c • s))
    (h0 : ∀ a < n, P (f' a)) : ∀ a < n, P (f a) := by
  induction h with
  | zero => exact h0
  | succ m f f' h hp ih =>
    apply ih (by omega)
    have hr := outer_row h.upper (m := m) (by omega)
    intro a ha
    have ha' := h0 a ha
    rw [hr a] at ha'
    split at ha'
    · have hm' := h0 m (by omega)
      rw [hr m, if_neg (by omega)] at hm'
      have := hP _ _ (f' a m / f' m m) ha' hm'
      rwa [sub_add_cancel] at this
    · exact ha'

theorem Steps.lower (h : Steps n m f f') (hm : m ≤ n) (h0 : ∀ a < n, ∀ k < n, a < k → f a k = 0) :
    ∀ a < n, ∀ k < n, a < k → f' a k = 0 := by
  induction h with
  | zero => exact h0
  | succ m f f' h hp ih =>
    intro a ha k hk hak
    have ih := ih (by omega) h0
    unfold outerT
    split
    · rw [ih a ha k hk hak, ih m (by omega) k hk (by omega)]
      ring
    · exact ih a ha k hk hak

theorem Steps.diag_of_lower (h : Steps n m f f') (hm : m ≤ n) (h0 : ∀ a < n, ∀ k < n, a < k → f a k = 0) :
    ∀ a < n, f' a a = f a a := by
  induction h with
  | zero => intro a _; rfl
  | succ m f f' h hp ih =>
    intro a ha
    rw [← ih (by omega) h0 a ha]
    unfold outerT
    split
    · rw [h.lower (by omega) h0 m (by omega) a ha (by omega)]
      ring
    · rfl

end algebra

/-! ## Reversal and rotation -/

theorem rotate_eq {α : Type} (n : Nat) (l : List α) (hn : n ≤ l.length) : rotate n l = l.drop n ++ l.take n := by
  induction n generalizing l with
  | zero => simp [rotate]
  | succ n ih =>
    cases l with
    | nil => simp at hn
    | cons x l =>
      rw [rotate, ih _ (by simp; simp at hn; omega)]
      simp only [List.length_cons] at hn
      rw [List.drop_append_of_le_length (by omega), List.take_append_of_le_length (by omega)]
      simp

theorem ent_reverse_rotate {n w c : Nat} {v : List (List F)} (hv : Rect n w v) (hc : c ≤ w) {i k : Nat} (hi : i < n) (hk : k < w) :
    (ent ((v.reverse.map List.reverse).map (rotate c)) i k : Option K) =
      ent v (n - 1 - i) (w - 1 - (if k < w - c then c + k else k - (w - c))) := by
  have hi' : n - 1 - i < v.length := by rw [hv.1]; omega
  have hl : v[n - 1 - i].length = w := hv.2 _ (List.getElem_mem _)
  unfold ent
  have h1 : ((v.reverse.map List.reverse).map (rotate c))[i]? = some (rotate c v[n - 1 - i].reverse) := by
    rw [List.getElem?_map, List.getElem?_map, List.getElem?_reverse (by rw [hv.1]; exact hi), hv.1, List.getElem?_eq_getElem hi']
    rfl
  rw [h1, List.getElem?_eq_getElem hi', rotate_eq c _ (by simpa [hl] using hc)]
  simp only [Option.bind_some]
  congr 1
  have hlen : (List.drop c v[n - 1 - i].reverse).length = w - c := by simp [hl]
  split
  · rename_i hlt
    rw [List.getElem?_append_left (by rw [hlen]; exact hlt), List.getElem?_drop, List.getElem?_reverse (by rw [hl]; omega), hl]
  · rename_i hge
    rw [List.getElem?_append_right (by rw [hlen]; omega), hlen, List.getElem?_take_of_lt (by omega),
      List.getElem?_reverse (by rw [hl]; omega), hl]

end
end MUL
