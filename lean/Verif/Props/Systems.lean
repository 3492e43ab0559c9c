import Verif.Proofs.Systems
import Verif.Props.Newton
/-!
# C76: solving several equations
-/

namespace MUL
open Out Spec FArith Matrix

set_option linter.unusedSectionVars false

/-! ## Which side of an equation comes first does not matter -/

/-- The functions are the same up to sign. -/
def SameUpToSign {n : Nat} (f g : Point n → ℝ) : Prop := ∃ s : ℝ, s * s = 1 ∧ ∀ x, g x = s * f x

section
variable {n : Nat} {fs gs : List (Point n → ℝ)}

theorem misfit_sign (h : List.Forall₂ SameUpToSign fs gs) (x : Point n) : misfit gs x = misfit fs x := by
  unfold misfit
  congr 1
  induction h with
  | nil => rfl
  | @cons f g fs gs hfg h ih =>
    obtain ⟨s, hs, hg⟩ := hfg
    rw [List.map_cons, List.sum_cons, List.map_cons, List.sum_cons, ih, hg, mul_pow, sq s, hs, one_mul]

theorem nth_sign (h : List.Forall₂ SameUpToSign fs gs) : ∃ σ : Nat → ℝ, (∀ i, σ i * σ i = 1) ∧ ∀ i x, nth gs i x = σ i * nth fs i x := by
  induction h with
  | nil => exact ⟨fun _ => 1, by simp, fun i x => by simp [nth]⟩
  | @cons f g fs gs hfg h ih =>
    obtain ⟨s, hs, hg⟩ := hfg
    obtain ⟨σ, h1, h2⟩ := ih
    refine ⟨fun i => match i with | 0 => s | i + 1 => σ i, fun i => ?_, fun i x => ?_⟩
    · cases i with
      | zero => exact hs
      | succ i => exact h1 i
    · cases i with
      | zero => simpa [nth] using hg x
      | succ i => simpa [nth] using h2 i x

theorem diag_minor (σ : Fin n → ℝ) (A : Matrix (Fin n) (Fin n) ℝ) (k : Nat) (hk : k ≤ n) :
    leadMinor (diagonal σ * A) k hk = (∏ i : Fin k, σ (Fin.castLE hk i)) * leadMinor A k hk := by
  unfold leadMinor
  have : (diagonal σ * A).submatrix (Fin.castLE hk) (Fin.castLE hk) =
      diagonal (fun i => σ (Fin.castLE hk i)) * A.submatrix (Fin.castLE hk) (Fin.castLE hk) := by
    ext i j
    simp [Matrix.diagonal_mul]
  rw [this, Matrix.det_mul, Matrix.det_diagonal]

theorem diag_minor_iff {σ : Fin n → ℝ} (hσ : ∀ i, σ i * σ i = 1) (A : Matrix (Fin n) (Fin n) ℝ) (k : Nat) (hk : k ≤ n) :
    leadMinor (diagonal σ * A) k hk ≠ 0 ↔ leadMinor A k hk ≠ 0 := by
  have h0 : ∀ i, σ i ≠ 0 := fun i hi => by have := hσ i; rw [hi] at this; simp at this
  rw [diag_minor, mul_ne_zero_iff]
  exact ⟨fun h => h.2, fun h => ⟨Finset.prod_ne_zero_iff.2 fun i _ => h0 _, h⟩⟩

theorem diag_redundant {σ : Fin n → ℝ} (hσ : ∀ i, σ i * σ i = 1) {A : Matrix (Fin n) (Fin n) ℝ} {b : Fin n → ℝ} (h : Redundant A b) :
    Redundant (diagonal σ * A) (fun i => σ i * b i) := by
  obtain ⟨k, hk, j, hk0, hkj, hm, c, h1, h2⟩ := h
  refine ⟨k, hk, j, hk0, hkj, fun k' h' => (diag_minor_iff hσ A k' _).2 (hm k' h'), fun t => σ j * c t * σ (Fin.castLE hk t), fun s => ?_, ?_⟩
  · rw [Matrix.diagonal_mul, h1, Finset.mul_sum]
    refine Finset.sum_congr rfl fun t _ => ?_
    rw [Matrix.diagonal_mul]
    linear_combination (-(σ j * c t * A (Fin.castLE hk t) s)) * hσ (Fin.castLE hk t)
  · beta_reduce
    rw [h2, Finset.mul_sum]
    refine Finset.sum_congr rfl fun t _ => ?_
    linear_combination (-(σ j * c t * b (Fin.castLE hk t))) * hσ (Fin.castLE hk t)

theorem diag_redundant_iff {σ : Fin n → ℝ} (hσ : ∀ i, σ i * σ i = 1) (A : Matrix (Fin n) (Fin n) ℝ) (b : Fin n → ℝ) :
    Redundant (diagonal σ * A) (fun i => σ i * b i) ↔ Redundant A b := by
  refine ⟨fun h => ?_, diag_redundant hσ⟩
  have := diag_redundant hσ h
  have e1 : diagonal σ * (diagonal σ * A) = A := by
    rw [← Matrix.mul_assoc, Matrix.diagonal_mul_diagonal]
    simp [hσ]
  have e2 : (fun i => σ i * (σ i * b i)) = b := by
    funext i
    rw [← mul_assoc, hσ, one_mul]
  rwa [e1, e2] at this

theorem diag_step {σ : Fin n → ℝ} (hσ : ∀ i, σ i * σ i = 1) (A : Matrix (Fin n) (Fin n) ℝ) (b : Fin n → ℝ) :
    (diagonal σ * A)⁻¹ *ᵥ (fun i => σ i * b i) = A⁻¹ *ᵥ b := by
  have hD : diagonal σ * diagonal σ = 1 := by
    rw [Matrix.diagonal_mul_diagonal]
    simp [hσ]
  have hinv : (diagonal σ)⁻¹ = diagonal σ := Matrix.inv_eq_left_inv hD
  have hb : (fun i => σ i * b i) = diagonal σ *ᵥ b := by
    funext i
    rw [Matrix.mulVec_diagonal]
  rw [Matrix.mul_inv_rev, hinv, hb, ← Matrix.mulVec_mulVec, Matrix.mulVec_mulVec b, hD, Matrix.one_mulVec]

theorem search_sign (h : List.Forall₂ SameUpToSign fs gs) {fs' gs' : List (Point n → ℝ)} (h' : List.Forall₂ SameUpToSign fs' gs') (ε : ℝ)
    (k : Nat) (x : Point n) : searchFrom ε gs gs' k x = searchFrom ε fs fs' k x := by
  obtain ⟨σ, hσ, hn⟩ := nth_sign h
  induction k generalizing x with
  | zero => rfl
  | succ k ih =>
    have h1 : slopes ε gs x = diagonal (fun i : Fin n => σ i) * slopes ε fs x := by
      ext i j
      rw [Matrix.diagonal_mul]
      simp only [slopes, hn]
      ring
    have h2 : values gs x = fun i : Fin n => σ i * values fs x i := by
      funext i
      exact hn i x
    have hσ' : ∀ i : Fin n, σ i * σ i = 1 := fun i => hσ i
    have e1 := propext (diag_redundant_iff hσ' (slopes ε fs x) (values fs x))
    have e2 : (∀ k (hk : k ≤ n), leadMinor (diagonal (fun i : Fin n => σ i) * slopes ε fs x) k hk ≠ 0) =
        ∀ k (hk : k ≤ n), leadMinor (slopes ε fs x) k hk ≠ 0 :=
      propext (forall_congr' fun k => forall_congr' fun hk => diag_minor_iff hσ' _ k hk)
    have e3 := diag_step hσ' (slopes ε fs x) (values fs x)
    rw [searchFrom, searchFrom, misfit_sign h, misfit_sign h', h1, h2, e3, ih]
    congr 1
    simp only [e2]
    by_cases hr : Redundant (slopes ε fs x) (values fs x)
    · rw [if_pos hr, if_pos (e1.mpr hr)]
    · rw [if_neg hr, if_neg (fun hc => hr (e1.mp hc))]

theorem foundFrom_sign (h : List.Forall₂ SameUpToSign fs gs) {fs' gs' : List (Point n → ℝ)} (h' : List.Forall₂ SameUpToSign fs' gs') (ε : ℝ)
    (l : List ℝ) : foundFrom ε gs gs' l = foundFrom ε fs fs' l := by
  induction l with
  | nil => rfl
  | cons s l ih => rw [foundFrom, foundFrom, search_sign h h', ih]

end

theorem solutions_sign {n : Nat} {fs gs : List (Point (n + 1) → ℝ)} (h : List.Forall₂ SameUpToSign fs gs) (p : Nat) (ε : ℝ) :
    solutionsOf p ε gs = solutionsOf p ε fs := by
  unfold solutionsOf
  have key : ((pick (n + 1) gs).map fun c => reportedPoints p (foundFrom ε c.1 c.2 starts)) =
      (pick (n + 1) fs).map fun c => reportedPoints p (foundFrom ε c.1 c.2 starts) := by
    have := pick_rel h (n + 1)
    generalize pick (n + 1) fs = a at this
    generalize pick (n + 1) gs = b at this
    induction this with
    | nil => rfl
    | cons hc _ ih =>
      rw [List.map_cons, List.map_cons, ih, foundFrom_sign hc.1 hc.2.1]
  rw [key]

/-! ## The procedure -/

section
variable {F : Type} [FNum F] [ExactReal F]
variable {cfg : Cfg} {n : Nat} {ctx : Context F} {names : List Str}

theorem points_map {ls : List (List F)} {us : List (Point n)} (h : List.Forall₂ VecIs ls us) :
    ls.map (fun l => l.map Exact.val) = us.map fun x => List.ofFn fun i => some (x i) := by
  induction h with
  | nil => rfl
  | cons h _ ih => rw [List.map_cons, List.map_cons, ih, vecIs_iff.1 h]

/-- **C76.** What `eq(l1=r1, …, x1, …)` returns for at least as many equations as variables, in terms of the differences of the two
sides as functions `fs` of the variables alone. -/
theorem C76_procedure (eqs : List (AST F × AST F)) (fs : List (Point (n + 1) → ℝ)) (hnames : names.length = n + 1) (hnodup : names.Nodup)
    (hfresh : ∀ x ∈ names, ∀ v ∈ ctx.vars, v.name ≠ x) (hf : List.Forall₂ (FunctionOn cfg ctx names) (eqs.map residualExpr) fs)
    (hlen : n + 1 ≤ eqs.length) :
    ∃ ls : List (List F), Finishes (fun k => eval cfg k (.equation eqs names) ctx) (.ok (ls.map asSolution)) ∧
      ls.map (fun l => l.map Exact.val) =
        (solutionsOf (cfg.prec - 2) (10 ^ (-(cfg.prec : Int))) fs).map fun x => List.ofFn fun i => some (x i) := by
  obtain ⟨ls, h1, N, h2⟩ := solve_sys eqs hnames hnodup hfresh hf (by rw [← hf.length_eq]; simpa using hlen)
  exact ⟨ls, ⟨by simp, N, h2 N le_rfl⟩, points_map h1⟩

end

/-! ## Consequences in terms of the functions -/

section
variable {n : Nat}

theorem search_found {fs rest : List (Point n → ℝ)} {h : ℝ} {k : Nat} {x y : Point n} (hs : searchFrom h fs rest k x = .found y) :
    misfit fs y < h ∧ misfit rest y < h := by
  induction k generalizing x with
  | zero => cases hs
  | succ k ih =>
    rw [searchFrom] at hs
    split at hs
    · split at hs
      · cases hs
        rename_i h1 h2
        exact ⟨h1, h2⟩
      · cases hs
    · split at hs
      · cases hs
      · split at hs
        · exact ih hs
        · cases hs

theorem mem_foundFrom {fs rest : List (Point n → ℝ)} {h : ℝ} {l : List ℝ} {y : Point n} (hy : y ∈ foundFrom h fs rest l) :
    ∃ s ∈ l, searchFrom h fs rest 1000 (fun _ => s) = .found y := by
  induction l with
  | nil => simp [foundFrom] at hy
  | cons s l ih =>
    rw [foundFrom] at hy
    split at hy
    · rename_i x hx
      rcases List.mem_cons.1 hy with rfl | hy
      · exact ⟨s, by simp, hx⟩
      · obtain ⟨t, ht, h⟩ := ih hy
        exact ⟨t, by simp [ht], h⟩
    · obtain ⟨t, ht, h⟩ := ih hy
      exact ⟨t, by simp [ht], h⟩
    · simp at hy

theorem distinctPoints_mem (p : Nat) (l : List (Point n)) : ∀ x ∈ distinctPoints p l, x ∈ l := by
  classical
  have key : ∀ (l acc : List (Point n)), ∀ x ∈ l.foldl (fun acc x => if ∃ y ∈ acc, ∀ i, SameRounded p (x i) (y i) then acc else acc ++ [x]) acc,
      x ∈ acc ∨ x ∈ l := by
    intro l
    induction l with
    | nil => intro acc x hx; exact .inl hx
    | cons a l ih =>
      intro acc x hx
      rw [List.foldl_cons] at hx
      rcases ih _ x hx with h | h
      · split at h
        · exact .inl h
        · rcases List.mem_append.1 h with h | h
          · exact .inl h
          · exact .inr (by simp only [List.mem_singleton] at h; simp [h])
      · exact .inr (by simp [h])
  intro x hx
  unfold distinctPoints at hx
  rcases key l [] x hx with h | h
  · simp at h
  · exact h

theorem reportedPoints_mem (p : Nat) (l : List (Point (n + 1))) : ∀ x ∈ reportedPoints p l, x ∈ l := by
  intro x hx
  unfold reportedPoints at hx
  split at hx
  · exact distinctPoints_mem p l x hx
  · rw [(List.mergeSort_perm _ _).mem_iff] at hx
    have := List.mem_of_mem_take hx
    rw [(List.mergeSort_perm _ _).mem_iff] at this
    exact distinctPoints_mem p l x this

theorem mem_solutions {p : Nat} {h : ℝ} {fs : List (Point (n + 1) → ℝ)} {x : Point (n + 1)} (hx : x ∈ solutionsOf p h fs) :
    ∃ c ∈ pick (n + 1) fs, x ∈ reportedPoints p (foundFrom h c.1 c.2 starts) := by
  unfold solutionsOf at hx
  generalize hL : (pick (n + 1) fs).map (fun c => reportedPoints p (foundFrom h c.1 c.2 starts)) = L at hx
  cases hfd : L.find? fun l => !l.isEmpty with
  | none => rw [hfd] at hx; simp at hx
  | some l =>
    rw [hfd] at hx
    have := List.mem_of_find?_eq_some hfd
    rw [← hL] at this
    obtain ⟨c, hc, hcl⟩ := List.mem_map.1 this
    rw [Option.getD_some] at hx
    refine ⟨c, hc, ?_⟩
    rw [hcl]
    exact hx

theorem pick_perm {α : Type} (k : Nat) (l : List α) : ∀ c ∈ pick k l, (c.1 ++ c.2).Perm l ∧ c.1.length = k := by
  induction l generalizing k with
  | nil =>
    cases k with
    | zero => simp [pick]
    | succ k => simp [pick]
  | cons a l ih =>
    cases k with
    | zero => simp [pick]
    | succ k =>
      intro c hc
      rw [pick, List.mem_append, List.mem_map, List.mem_map] at hc
      rcases hc with ⟨d, hd, rfl⟩ | ⟨d, hd, rfl⟩
      · obtain ⟨h1, h2⟩ := ih k d hd
        exact ⟨by simpa using h1, by simp [h2]⟩
      · obtain ⟨h1, h2⟩ := ih (k + 1) d hd
        exact ⟨(List.perm_middle).trans (h1.cons a), h2⟩

theorem misfit_bound {fs : List (Point n → ℝ)} {x : Point n} {h : ℝ} (hm : misfit fs x < h) : ∀ f ∈ fs, |f x| < h := by
  intro f hf
  refine lt_of_le_of_lt ?_ hm
  unfold misfit
  rw [← Real.sqrt_sq_eq_abs]
  apply Real.sqrt_le_sqrt
  exact List.single_le_sum (by
    intro y hy
    obtain ⟨g, _, rfl⟩ := List.mem_map.1 hy
    positivity) _ (List.mem_map_of_mem (f := fun f : Point n → ℝ => f x ^ 2) hf)

/-- **C76.** At every returned point all functions are smaller than `10^-PREC`, also those that were not used in the search. -/
theorem C76_small {p : Nat} {h : ℝ} {fs : List (Point (n + 1) → ℝ)} {x : Point (n + 1)} (hx : x ∈ solutionsOf p h fs) :
    ∀ f ∈ fs, |f x| < h := by
  obtain ⟨c, hc, hx⟩ := mem_solutions hx
  obtain ⟨s, _, hs⟩ := mem_foundFrom (reportedPoints_mem _ _ _ hx)
  obtain ⟨h1, h2⟩ := search_found hs
  intro f hf
  have := (pick_perm _ _ c hc).1.mem_iff.2 hf
  rcases List.mem_append.1 this with hm | hm
  · exact misfit_bound h1 f hm
  · exact misfit_bound h2 f hm

/-- **C76.** At most ten points are returned, in ascending order of the first coordinate if more than ten were found. -/
theorem C76_at_most_ten (p : Nat) (l : List (Point (n + 1))) : (reportedPoints p l).length ≤ 10 ∧
    (10 < (distinctPoints p l).length → (reportedPoints p l).length = 10 ∧ (reportedPoints p l).Pairwise (fun x y => x 0 ≤ y 0) ∧
      ∀ x ∈ distinctPoints p l, x ∉ reportedPoints p l → ∀ y ∈ reportedPoints p l, |y 0| ≤ |x 0|) := by
  unfold reportedPoints
  split
  · rename_i h
    exact ⟨h, fun hc => absurd hc (by omega)⟩
  · rename_i h
    have hlen : (((distinctPoints p l).mergeSort fun a b => decide (|a 0| ≤ |b 0|)).take 10).length = 10 := by
      rw [List.length_take, List.length_mergeSort]
      omega
    refine ⟨by rw [List.length_mergeSort, hlen], fun _ => ⟨by rw [List.length_mergeSort, hlen], ?_, ?_⟩⟩
    · have := List.pairwise_mergeSort (le := fun a b : Point (n + 1) => decide (a 0 ≤ b 0))
        (fun a b c h1 h2 => by simp only [decide_eq_true_eq] at *; exact h1.trans h2)
        (fun a b => by simp only [Bool.or_eq_true, decide_eq_true_eq]; exact le_total _ _)
        (((distinctPoints p l).mergeSort fun a b => decide (|a 0| ≤ |b 0|)).take 10)
      exact this.imp fun h => by simpa using h
    · intro x hx hxn y hy
      rw [(List.mergeSort_perm _ _).mem_iff] at hxn hy
      have hs := List.pairwise_mergeSort (le := fun a b : Point (n + 1) => decide (|a 0| ≤ |b 0|))
        (fun a b c h1 h2 => by simp only [decide_eq_true_eq] at *; exact h1.trans h2)
        (fun a b => by simp only [Bool.or_eq_true, decide_eq_true_eq]; exact le_total _ _) (distinctPoints p l)
      have hx' : x ∈ (distinctPoints p l).mergeSort fun a b => decide (|a 0| ≤ |b 0|) := (List.mergeSort_perm _ _).mem_iff.2 hx
      rw [← List.take_append_drop 10 ((distinctPoints p l).mergeSort fun a b => decide (|a 0| ≤ |b 0|))] at hx' hs
      have hd := (List.mem_append.1 hx').resolve_left hxn
      have := (List.pairwise_append.1 hs).2.2 y hy x hd
      simpa using this

theorem pick_all {α : Type} (l : List α) : pick l.length l = [(l, [])] := by
  induction l with
  | nil => rfl
  | cons a l ih =>
    have hshort : ∀ (l : List α) (k : Nat), l.length < k → pick k l = [] := by
      intro l
      induction l with
      | nil => intro k hk; cases k with
        | zero => simp at hk
        | succ k => rfl
      | cons a l ih =>
        intro k hk
        cases k with
        | zero => simp at hk
        | succ k =>
          rw [List.length_cons] at hk
          rw [pick, ih k (by omega), ih (k + 1) (by omega)]
          rfl
    rw [List.length_cons, pick, ih, hshort l _ (by omega)]
    rfl

theorem solutions_square {p : Nat} {h : ℝ} {fs : List (Point (n + 1) → ℝ)} (hl : fs.length = n + 1) :
    solutionsOf p h fs = reportedPoints p (foundFrom h fs [] starts) := by
  unfold solutionsOf
  have : pick (n + 1) fs = [(fs, [])] := by have := pick_all fs; rwa [hl] at this
  rw [this, List.map_singleton, List.find?_singleton]
  generalize reportedPoints p (foundFrom h fs [] starts) = L
  cases L <;> rfl

theorem mem_starts {s : ℝ} (hs : s ∈ starts) : ∃ j : Int, -1000 ≤ j ∧ j < 1000 ∧ s = j := by
  unfold starts at hs
  obtain ⟨k, hk, rfl⟩ := List.mem_map.1 hs
  rw [List.mem_range] at hk
  exact ⟨(k : Int) - 1000, by omega, by omega, by push_cast; rfl⟩

/-- **C76.** Equations are not reordered: if the first of as many equations as variables does not contain the first variable, nothing is
found, except start points `(j, …, j)` that happen to be solutions. -/
theorem C76_first_variable {p : Nat} {h : ℝ} {f : Point (n + 1) → ℝ} {fs : List (Point (n + 1) → ℝ)} (hl : fs.length = n)
    (hf : ∀ (x : Point (n + 1)) (t : ℝ), f (Function.update x 0 t) = f x) :
    ∀ x ∈ solutionsOf p h (f :: fs), ∃ j : Int, -1000 ≤ j ∧ j < 1000 ∧ x = fun _ => (j : ℝ) := by
  intro x hx
  rw [solutions_square (by simp [hl])] at hx
  obtain ⟨s, hs, hsx⟩ := mem_foundFrom (reportedPoints_mem _ _ _ hx)
  obtain ⟨j, h1, h2, rfl⟩ := mem_starts hs
  refine ⟨j, h1, h2, ?_⟩
  have hzero : ∀ y : Point (n + 1), leadMinor (slopes h (f :: fs) y) 1 (by omega) = 0 := by
    intro y
    unfold leadMinor
    rw [Matrix.det_unique]
    show slopes h (f :: fs) y 0 0 = 0
    simp only [slopes, nth, Fin.val_zero, List.getD_cons_zero, hf, sub_self, zero_div]
  rw [searchFrom] at hsx
  split at hsx
  · split at hsx
    · cases hsx
      rfl
    · cases hsx
  · split at hsx
    · cases hsx
    · rw [if_neg (fun hall => hall 1 (by omega) (hzero _))] at hsx
      cases hsx

/-- **C76.** If the linear system at the first start point has a redundant equation, no other start value is tried: nothing is found,
whatever the solutions are. -/
theorem C76_gives_up {p : Nat} {h : ℝ} {fs : List (Point (n + 1) → ℝ)} (hl : fs.length = n + 1)
    (hm : h ≤ misfit fs (fun _ => -1000)) (hr : Redundant (slopes h fs fun _ => -1000) (values fs fun _ => -1000)) : solutionsOf p h fs = [] := by
  rw [solutions_square hl]
  have hstart : starts = (-1000) :: (List.range 1999).map fun k : Nat => ((k + 1 : Nat) : ℝ) - 1000 := by
    unfold starts
    rw [show (2000 : Nat) = 1999 + 1 from rfl, List.range_succ_eq_map, List.map_cons, List.map_map]
    congr 1
    norm_num
  have hs : searchFrom h fs [] 1000 (fun _ => (-1000 : ℝ)) = .giveUp := by
    rw [searchFrom, if_neg (not_lt.2 hm), if_pos hr]
  rw [hstart, foundFrom, hs]
  simp [reportedPoints, distinctPoints]

/-! ### Linear systems -/

/-- The functions of the linear system `A x = b`. -/
def linear {n : Nat} (A : Matrix (Fin n) (Fin n) ℝ) (b : Fin n → ℝ) : List (Point n → ℝ) := List.ofFn fun i x => (A *ᵥ x) i - b i

theorem nth_linear (A : Matrix (Fin n) (Fin n) ℝ) (b : Fin n → ℝ) (i : Fin n) (x : Point n) : nth (linear A b) i x = (A *ᵥ x) i - b i := by
  unfold nth linear
  rw [List.getD_eq_getElem?_getD, List.getElem?_ofFn]
  simp

theorem values_linear (A : Matrix (Fin n) (Fin n) ℝ) (b : Fin n → ℝ) (x : Point n) : values (linear A b) x = A *ᵥ x - b := by
  funext i
  rw [values, nth_linear, Pi.sub_apply]

theorem slopes_linear (A : Matrix (Fin n) (Fin n) ℝ) (b : Fin n → ℝ) {h : ℝ} (hh : h ≠ 0) (x : Point n) : slopes h (linear A b) x = A := by
  ext i j
  rw [slopes, nth_linear, nth_linear]
  have : Function.update x j (x j + h) = x + Pi.single j h := by
    funext k
    by_cases hk : k = j
    · subst hk; simp
    · simp [hk]
  rw [this, Matrix.mulVec_add, Pi.add_apply, Matrix.mulVec_single]
  simp only [MulOpposite.smul_eq_mul_unop, Pi.smul_apply, Matrix.col_apply, MulOpposite.unop_op]
  field_simp
  ring

theorem misfit_linear (A : Matrix (Fin n) (Fin n) ℝ) (b : Fin n → ℝ) (x : Point n) : misfit (linear A b) x = √(∑ i, ((A *ᵥ x) i - b i) ^ 2) := by
  unfold misfit linear
  rw [List.map_ofFn, List.sum_ofFn]
  rfl

theorem not_redundant {A : Matrix (Fin n) (Fin n) ℝ} (b : Fin n → ℝ) (hA : A.det ≠ 0) : ¬ Redundant A b := by
  rintro ⟨k, hk, j, hk0, hkj, hm, c, h1, h2⟩
  have hli := Matrix.linearIndependent_rows_of_det_ne_zero hA
  rw [Fintype.linearIndependent_iff] at hli
  have := hli (fun i => (if h : i.val < k then c ⟨i, h⟩ else 0) - if i = j then 1 else 0) ?_ j
  · rw [dif_neg (by omega), if_pos rfl] at this
    norm_num at this
  · funext s
    simp only [Finset.sum_apply, Pi.smul_apply, smul_eq_mul, Pi.zero_apply, sub_mul, Finset.sum_sub_distrib, ite_mul, one_mul, zero_mul,
      Finset.sum_ite_eq', Finset.mem_univ, if_true, Matrix.row_apply]
    rw [h1 s, sub_eq_zero]
    symm
    refine Finset.sum_of_injOn (Fin.castLE hk) (Fin.castLE_injective hk).injOn (by simp) ?_ ?_
    · intro i _ hi
      rw [dif_neg, zero_mul]
      intro hc
      exact hi ⟨⟨i, hc⟩, by simp, rfl⟩
    · intro t _
      rw [dif_pos (show (Fin.castLE hk t).val < k from t.2)]
      rfl

theorem foundFrom_const {fs rest : List (Point n → ℝ)} {h : ℝ} {y : Point n} {l : List ℝ}
    (hs : ∀ s ∈ l, searchFrom h fs rest 1000 (fun _ => s) = .found y) : foundFrom h fs rest l = List.replicate l.length y := by
  induction l with
  | nil => rfl
  | cons s l ih =>
    rw [foundFrom, hs s (by simp), ih fun t ht => hs t (by simp [ht])]
    rfl

theorem distinct_const (p : Nat) (y : Point n) (k : Nat) : distinctPoints p (List.replicate (k + 1) y) = [y] := by
  classical
  unfold distinctPoints
  rw [List.replicate_succ, List.foldl_cons, if_neg (by simp)]
  rw [List.nil_append]
  induction k with
  | zero => rfl
  | succ k ih =>
    rw [List.replicate_succ, List.foldl_cons, if_pos]
    · exact ih
    · exact ⟨y, by simp, fun i => rfl⟩

/-- **C76.** A linear system whose leading minors are not zero: exactly its solution is returned, unless a start point `(j, …, j)` is
almost a solution. -/
theorem C76_linear {p : Nat} {h : ℝ} (hh : 0 < h) {A : Matrix (Fin (n + 1)) (Fin (n + 1)) ℝ} {b : Fin (n + 1) → ℝ}
    (hA : ∀ k (hk : k ≤ n + 1), leadMinor A k hk ≠ 0)
    (hb : ∀ j : Int, -1000 ≤ j → j < 1000 → (A *ᵥ fun _ => (j : ℝ)) = b ∨ h ^ 2 ≤ ∑ i, ((A *ᵥ fun _ => (j : ℝ)) i - b i) ^ 2) :
    solutionsOf p h (linear A b) = [A⁻¹ *ᵥ b] := by
  have hdet : A.det ≠ 0 := by
    have := hA (n + 1) le_rfl
    unfold leadMinor at this
    exact this
  have hunit : IsUnit A.det := isUnit_iff_ne_zero.2 hdet
  have hsol : ∀ y : Point (n + 1), A *ᵥ y = b → y = A⁻¹ *ᵥ b := by
    intro y hy
    rw [← hy, Matrix.mulVec_mulVec, Matrix.nonsing_inv_mul A hunit, Matrix.one_mulVec]
  have hzero : ∀ y : Point (n + 1), A *ᵥ y = b → misfit (linear A b) y < h := by
    intro y hy
    rw [misfit_linear, hy]
    simpa using hh
  have hrest : ∀ y : Point (n + 1), misfit ([] : List (Point (n + 1) → ℝ)) y < h := by
    intro y
    simpa [misfit] using hh
  have hx : A *ᵥ (A⁻¹ *ᵥ b) = b := by
    rw [Matrix.mulVec_mulVec, Matrix.mul_nonsing_inv A hunit, Matrix.one_mulVec]
  rw [solutions_square (by simp [linear])]
  have key : ∀ s ∈ starts, searchFrom h (linear A b) [] 1000 (fun _ => s) = .found (A⁻¹ *ᵥ b) := by
    intro s hs
    obtain ⟨j, h1, h2, rfl⟩ := mem_starts hs
    rcases hb j h1 h2 with he | hge
    · rw [searchFrom, if_pos (hzero _ he), if_pos (hrest _), hsol _ he]
    · rw [searchFrom, if_neg (not_lt.2 (by rw [misfit_linear]; exact Real.le_sqrt_of_sq_le hge)), slopes_linear A b hh.ne',
        if_neg (not_redundant _ hdet), if_pos hA, values_linear, Matrix.mulVec_sub, Matrix.mulVec_mulVec, Matrix.nonsing_inv_mul A hunit,
        Matrix.one_mulVec, sub_sub_cancel, searchFrom, if_pos (hzero _ hx), if_pos (hrest _)]
  have hlen : starts.length = 1999 + 1 := by
    unfold starts
    rw [List.length_map, List.length_range]
  rw [foundFrom_const key, hlen]
  generalize 1999 = m
  unfold reportedPoints
  rw [distinct_const]
  rfl

/-- **C76.** In particular a linear system with whole coefficients whose leading minors are not zero. -/
theorem C76_linear_whole {p : Nat} {h : ℝ} (hh : 0 < h) (hh' : h ≤ 1) {A : Matrix (Fin (n + 1)) (Fin (n + 1)) Int} {b : Fin (n + 1) → Int}
    (hA : ∀ k (hk : k ≤ n + 1), (A.submatrix (Fin.castLE hk) (Fin.castLE hk)).det ≠ 0) :
    solutionsOf p h (linear (A.map Int.cast) fun i => (b i : ℝ)) = [(A.map Int.cast : Matrix _ _ ℝ)⁻¹ *ᵥ fun i => (b i : ℝ)] := by
  refine C76_linear hh (fun k hk => ?_) (fun j _ _ => ?_)
  · unfold leadMinor
    have : ((A.map Int.cast : Matrix _ _ ℝ).submatrix (Fin.castLE hk) (Fin.castLE hk)).det =
        (((A.submatrix (Fin.castLE hk) (Fin.castLE hk)).det : Int) : ℝ) := by
      rw [Matrix.submatrix_map]
      exact (Int.cast_det _).symm
    rw [this]
    exact Int.cast_ne_zero.2 (hA k hk)
  · have hcast : ((A.map Int.cast : Matrix _ _ ℝ) *ᵥ fun _ => (j : ℝ)) = fun i => (((A *ᵥ fun _ => j) i : Int) : ℝ) := by
      funext i
      simp [Matrix.mulVec, dotProduct]
    rw [hcast]
    by_cases he : (A *ᵥ fun _ => j) = b
    · left
      rw [he]
    · right
      have hex : ∃ i, (A *ᵥ fun _ => j) i ≠ b i := by
        by_contra hc
        push Not at hc
        exact he (funext hc)
      obtain ⟨i, hi⟩ := hex
      have h1 : (1 : ℝ) ≤ (((A *ᵥ fun _ => j) i : Int) - (b i : ℝ)) ^ 2 := by
        have : (1 : Int) ≤ ((A *ᵥ fun _ => j) i - b i) ^ 2 := by
          have : (A *ᵥ fun _ => j) i - b i ≠ 0 := sub_ne_zero.2 hi
          exact Int.add_one_le_iff.2 (sq_pos_iff.2 this)
        exact_mod_cast this
      refine (pow_le_one₀ hh.le hh').trans (h1.trans ?_)
      exact Finset.single_le_sum (f := fun i => ((((A *ᵥ fun _ => j) i : Int) : ℝ) - (b i : ℝ)) ^ 2) (fun i _ => sq_nonneg _) (Finset.mem_univ i)

end

/-! ## From the text -/

section
variable {F : Type} [FNum F] [ExactReal F] [UTable]
variable {cfg : Cfg} {n : Nat} {ctx : Context F} {names : List Str} {φ : Defs} {ρ : Env}

omit [UTable] in
theorem bind_set {x : Str} {o : Obj} {names : List Str} {os : List Obj} (h : x ∉ names) :
    (ρ.set x [o]).bind names os = ρ.bind (x :: names) (o :: os) := by
  funext m
  unfold Env.bind
  rw [List.zip_cons_cons, List.find?_cons]
  by_cases hm : x = m
  · subst hm
    have hnone : (names.zip os).find? (fun p => decide (p.1 = x)) = none := by
      rw [List.find?_eq_none]
      intro p hp
      have := (List.of_mem_zip hp).1
      simp only [decide_eq_true_eq]
      rintro rfl
      exact h this
    simp only [decide_true, hnone]
    simp [Env.set]
  · simp only [hm, decide_false]
    cases (names.zip os).find? fun p => decide (p.1 = m) with
    | some p => rfl
    | none =>
      show Env.set ρ x [o] m = ρ m
      unfold Env.set
      rw [if_neg (fun hc => hm hc.symm)]

omit [UTable] in
theorem models_setVars {l : List F} {x : Point n} (hm : Models cfg ctx ρ φ) (hnd : names.Nodup) (hx : VecIs l x) (hlen : names.length = n) :
    Models cfg (setVars ctx names l) (ρ.bind names (List.ofFn fun i => .scalar (x i))) φ := by
  induction names generalizing n l x ctx ρ with
  | nil =>
    have : (ρ.bind [] (List.ofFn fun i => Obj.scalar (x i))) = ρ := by
      funext m
      simp [Env.bind]
    rw [this]
    exact hm
  | cons a names ih =>
    subst hlen
    match l, hx with
    | [], hx => exact absurd hx.1 (by simp)
    | v :: l, hx =>
      rw [vecIs_cons] at hx
      rw [List.nodup_cons] at hnd
      have := ih (hm.set a hx.1) hnd.2 hx.2 rfl
      rw [bind_set hnd.1] at this
      rw [List.ofFn_succ]
      exact this

omit [UTable] in
theorem functionOn_sub {l r : AST F} {f g : Point n → ℝ}
    (hl : ∀ (a : List F) (x : Point n), VecIs a x → ∃ vs, Finishes (fun k => evalRec cfg k l (setVars ctx names a) []) (.ok vs) ∧
      List.Forall₂ Means vs [.scalar (f x)])
    (hr : ∀ (a : List F) (x : Point n), VecIs a x → ∃ vs, Finishes (fun k => evalRec cfg k r (setVars ctx names a) []) (.ok vs) ∧
      List.Forall₂ Means vs [.scalar (g x)]) :
    FunctionOn cfg ctx names (residualExpr (l, r)) fun x => f x - g x := by
  intro a x ha
  obtain ⟨lv, h1, h2⟩ := hl a x (vecIs_iff.2 ha)
  obtain ⟨rv, h3, h4⟩ := hr a x (vecIs_iff.2 ha)
  obtain ⟨vs, h5, h6⟩ := simple_means (op := BinOp.sub.op) (T := Op2 .sub) (rss := [[.scalar (f x - g x)]]) h1 h3 h2 h4
    (fun v u o p rs hv hu h => op2_ok h hv hu) (.cons (.sub (.scalar _ _)) .nil)
  cases h6 with
  | cons h6 h7 =>
    cases h7
    obtain ⟨b, rfl, hb⟩ := h6
    exact ⟨b, [], h5, hb⟩

/-- **C76**, from the text: evaluating `eq(l1=r1, …, x1, …)`, where the sides are everywhere defined functions of the unused names
`x1, …`, returns what the procedure finds for the differences. -/
theorem C76_text (hprec : 3 ≤ cfg.prec) (ls rs : List Ex) (hwf : (Ex.eqs ls rs names).WF) (hnames : names.length = n + 1) (hnodup : names.Nodup)
    (hx : ∀ x ∈ names, ρ x = none) (fs gs : List (Point (n + 1) → ℝ))
    (hl : List.Forall₂ (fun e f => ∀ x : Point (n + 1), Denotes cfg φ [] (ρ.bind names (List.ofFn fun i => .scalar (x i))) e [.scalar (f x)]) ls fs)
    (hr : List.Forall₂ (fun e g => ∀ x : Point (n + 1), Denotes cfg φ [] (ρ.bind names (List.ofFn fun i => .scalar (x i))) e [.scalar (g x)]) rs gs)
    (hlen : n + 1 ≤ ls.length) (hm : Models cfg ctx ρ φ) :
    ∃ vs : List (List F), Finishes (fun k => quickEval cfg k (Ex.eqs ls rs names).text ctx) (.ok (vs.map asSolution)) ∧
      vs.map (fun l => l.map Exact.val) = (solutionsOf (cfg.prec - 2) (10 ^ (-(cfg.prec : Int)))
        (List.zipWith (fun f g x => f x - g x) fs gs)).map fun x => List.ofFn fun i => some (x i) := by
  have hlr : ls.length = rs.length := hwf.1
  have hparse := C29_eval cfg _ ctx (C09_parse_text (F := F) cfg _ hwf)
  have hfresh : ∀ x ∈ names, ∀ v ∈ ctx.vars, v.name ≠ x := fun x hn => fresh_of_absent (hm.absent x (hx x hn))
  -- the sides, in the order chosen by the parser
  have key : ∃ (eqs : List (AST F × AST F)) (ks : List (Point (n + 1) → ℝ)), (Ex.eqs ls rs names).tree cfg = .equation eqs names ∧
      eqs.length = ls.length ∧ List.Forall₂ (FunctionOn cfg ctx names) (eqs.map residualExpr) ks ∧
      List.Forall₂ SameUpToSign (List.zipWith (fun f g x => f x - g x) fs gs) ks := by
    suffices h : ∃ (eqs : List (AST F × AST F)) (ks : List (Point (n + 1) → ℝ)),
        (List.zipWith (fun (l r : Str × AST F) => if r.1.length ≤ l.1.length then (l.2, r.2) else (r.2, l.2))
          ((textAll ls).zip (treeAll cfg ls)) ((textAll rs).zip (treeAll cfg rs))) = eqs ∧ eqs.length = ls.length ∧
        List.Forall₂ (FunctionOn cfg ctx names) (eqs.map residualExpr) ks ∧
        List.Forall₂ SameUpToSign (List.zipWith (fun f g x => f x - g x) fs gs) ks by
      obtain ⟨eqs, ks, h1, h2⟩ := h
      refine ⟨eqs, ks, ?_, h2⟩
      rw [Ex.tree, h1]
    clear hparse hwf hlen
    induction hl generalizing rs gs with
    | nil =>
      cases hr with
      | nil => exact ⟨[], [], rfl, rfl, .nil, .nil⟩
      | cons _ _ => simp at hlr
    | @cons l f ls fs hlf hl ih =>
      cases hr with
      | nil => simp at hlr
      | @cons r g rs gs hrg hr =>
        obtain ⟨eqs, ks, h1, h2, h3, h4⟩ := ih rs gs hr (by simpa using hlr)
        have e1 : ∀ (a : List F) (x : Point (n + 1)), VecIs a x → ∃ vs, Finishes (fun k => evalRec cfg k (l.tree cfg) (setVars ctx names a) []) (.ok vs) ∧
            List.Forall₂ Means vs [.scalar (f x)] := fun a x ha => denotes_eval hprec (hlf x) (models_setVars hm hnodup ha hnames)
        have e2 : ∀ (a : List F) (x : Point (n + 1)), VecIs a x → ∃ vs, Finishes (fun k => evalRec cfg k (r.tree cfg) (setVars ctx names a) []) (.ok vs) ∧
            List.Forall₂ Means vs [.scalar (g x)] := fun a x ha => denotes_eval hprec (hrg x) (models_setVars hm hnodup ha hnames)
        simp only [textAll, treeAll, List.zip_cons_cons, List.zipWith_cons_cons]
        split
        · exact ⟨(l.tree cfg, r.tree cfg) :: eqs, (fun x => f x - g x) :: ks, by rw [h1], by simp [h2],
            .cons (functionOn_sub e1 e2) h3, .cons ⟨1, by norm_num, fun x => by ring⟩ h4⟩
        · exact ⟨(r.tree cfg, l.tree cfg) :: eqs, (fun x => g x - f x) :: ks, by rw [h1], by simp [h2],
            .cons (functionOn_sub e2 e1) h3, .cons ⟨-1, by norm_num, fun x => by ring⟩ h4⟩
  obtain ⟨eqs, ks, htree, hel, hfun, hsign⟩ := key
  rw [htree] at hparse
  obtain ⟨vs, h1, h2⟩ := C76_procedure eqs ks hnames hnodup hfresh hfun (by omega)
  rw [solutions_sign hsign] at h2
  exact ⟨vs, (hparse.1 _).1 h1, h2⟩

end

/-! ## Examples -/

section
variable {F : Type} [FNum F] [ExactReal F] [UTable]

theorem tol_pos (p : Nat) : (0 : ℝ) < 10 ^ (-(p : Int)) := zpow_pos (by norm_num) _

theorem tol_le (p : Nat) : (10 : ℝ) ^ (-(p : Int)) ≤ 1 := by
  rw [zpow_neg, zpow_natCast]
  exact inv_le_one_of_one_le₀ (one_le_pow₀ (by norm_num))

/-- The values of the names `x` and `y` at a point with two coordinates. -/
theorem bind_xy (ρ : Env) (x : Point 2) :
    (ρ.bind [['x'], ['y']] (List.ofFn fun i => .scalar (x i))) ['x'] = some [.scalar (x 0)] ∧
    (ρ.bind [['x'], ['y']] (List.ofFn fun i => .scalar (x i))) ['y'] = some [.scalar (x 1)] := by
  constructor <;> simp [Env.bind, List.ofFn_succ]

theorem names_xy : ∀ v ∈ [['x'], ['y']], NameShape v := by
  intro v hv
  simp only [List.mem_cons, List.not_mem_nil, or_false] at hv
  rcases hv with rfl | rfl
  · exact nameShape_letters (by decide) (by decide)
  · exact nameShape_letters (by decide) (by decide)

/-- The constants of the default context. -/
noncomputable abbrev piE : Env := fun n => if n = ['p', 'i'] then some [.scalar Real.pi] else if n = ['e'] then some [.scalar (Real.exp 1)] else none

/-- Two equations in `x` and `y`, in the default context. -/
theorem system_xy (cfg : Cfg) (hprec : 3 ≤ cfg.prec) (l₁ l₂ r₁ r₂ : Ex) (w₁ : l₁.WF) (w₂ : l₂.WF) (w₃ : r₁.WF) (w₄ : r₂.WF)
    (hno : ∀ s ∈ textAll [l₁, l₂] ++ textAll [r₁, r₂], '=' ∉ s)
    (f₁ f₂ g₁ g₂ : Point 2 → ℝ)
    (h₁ : ∀ x : Point 2, Denotes cfg (fun _ => none) [] (piE.bind [['x'], ['y']] (List.ofFn fun i => .scalar (x i))) l₁ [.scalar (f₁ x)])
    (h₂ : ∀ x : Point 2, Denotes cfg (fun _ => none) [] (piE.bind [['x'], ['y']] (List.ofFn fun i => .scalar (x i))) l₂ [.scalar (f₂ x)])
    (h₃ : ∀ x : Point 2, Denotes cfg (fun _ => none) [] (piE.bind [['x'], ['y']] (List.ofFn fun i => .scalar (x i))) r₁ [.scalar (g₁ x)])
    (h₄ : ∀ x : Point 2, Denotes cfg (fun _ => none) [] (piE.bind [['x'], ['y']] (List.ofFn fun i => .scalar (x i))) r₂ [.scalar (g₂ x)]) :
    ∃ vs : List (List F), Finishes (fun k => quickEval cfg k (Ex.eqs [l₁, l₂] [r₁, r₂] [['x'], ['y']]).text Context.default)
        (.ok (vs.map asSolution)) ∧
      vs.map (fun l => l.map Exact.val) = (solutionsOf (cfg.prec - 2) (10 ^ (-(cfg.prec : Int)))
        [fun x => f₁ x - g₁ x, fun x => f₂ x - g₂ x]).map fun x => List.ofFn fun i => some (x i) := by
  have := C76_text (n := 1) (F := F) (ctx := Context.default) (names := [['x'], ['y']]) (ρ := piE) (φ := fun _ => none) hprec [l₁, l₂] [r₁, r₂]
    ⟨rfl, ⟨w₁, w₂, trivial⟩, ⟨w₃, w₄, trivial⟩, Or.inl (by simp), hno, names_xy⟩ rfl (by decide)
    (by intro v hv; simp only [List.mem_cons, List.not_mem_nil, or_false] at hv; rcases hv with rfl | rfl <;> simp [piE])
    [f₁, f₂] [g₁, g₂] (.cons h₁ (.cons h₂ .nil)) (.cons h₃ (.cons h₄ .nil)) (by simp) (C60_constants (F := F) cfg).1
  exact this

/-- `eq(x+y=3,x-y=1,x,y)` in the default context: exactly the solution (2, 1). -/
example (cfg : Cfg) (hprec : 3 ≤ cfg.prec) :
    ∃ s t : F, Finishes (fun n => quickEval cfg n "eq(x+y=3,x-y=1,x,y)".toList Context.default) (.ok [asSolution [s, t]]) ∧
      Exact.val s = some (2 : ℝ) ∧ Exact.val t = some (1 : ℝ) := by
  have htext : "eq(x+y=3,x-y=1,x,y)".toList = (Ex.eqs [.bin .add (.var ['x']) (.var ['y']), .bin .sub (.var ['x']) (.var ['y'])]
      [.num ['3'] none, .num ['1'] none] [['x'], ['y']]).text := by decide
  rw [htext]
  obtain ⟨vs, h1, h2⟩ := system_xy (F := F) cfg hprec (.bin .add (.var ['x']) (.var ['y'])) (.bin .sub (.var ['x']) (.var ['y']))
    (.num ['3'] none) (.num ['1'] none)
    ⟨wf_name (n := "x") (by decide), wf_name (n := "y") (by decide), by decide, by decide, nofun⟩
    ⟨wf_name (n := "x") (by decide), wf_name (n := "y") (by decide), by decide, by decide, nofun⟩
    (wf_num (s := "3") (by decide)) (wf_num (s := "1") (by decide)) (by decide)
    (fun x => x 0 + x 1) (fun x => x 0 - x 1) (fun _ => 3) (fun _ => 1)
    (fun x => denotes_bin (.var _ _ (bind_xy _ x).1) (.var _ _ (bind_xy _ x).2) (.add (.scalar _ _)))
    (fun x => denotes_bin (.var _ _ (bind_xy _ x).1) (.var _ _ (bind_xy _ x).2) (.sub (.scalar _ _)))
    (fun x => denotes_digit '3' 3 3 rfl (by norm_num)) (fun x => denotes_digit '1' 1 1 rfl (by norm_num))
  have hfs : [fun x : Point 2 => x 0 + x 1 - 3, fun x => x 0 - x 1 - 1] =
      linear ((!![1, 1; 1, -1] : Matrix (Fin 2) (Fin 2) Int).map Int.cast) (fun i => ((![3, 1] i : Int) : ℝ)) := by
    simp [linear, List.ofFn_succ, Matrix.mulVec, dotProduct, Fin.sum_univ_two, sub_eq_add_neg]
  rw [hfs, C76_linear_whole (tol_pos _) (tol_le _)] at h2
  · have hsol : ((!![1, 1; 1, -1] : Matrix (Fin 2) (Fin 2) Int).map Int.cast : Matrix _ _ ℝ)⁻¹ *ᵥ (fun i => ((![3, 1] i : Int) : ℝ)) = ![2, 1] := by
      have hu : IsUnit ((!![1, 1; 1, -1] : Matrix (Fin 2) (Fin 2) Int).map Int.cast : Matrix _ _ ℝ).det := by
        rw [isUnit_iff_ne_zero, Matrix.det_fin_two]
        norm_num
      have hb : (fun i => ((![3, 1] i : Int) : ℝ)) = ((!![1, 1; 1, -1] : Matrix (Fin 2) (Fin 2) Int).map Int.cast : Matrix _ _ ℝ) *ᵥ ![2, 1] := by
        funext i
        fin_cases i <;> simp [Matrix.mulVec, dotProduct, Fin.sum_univ_two] <;> norm_num
      rw [hb, Matrix.mulVec_mulVec, Matrix.nonsing_inv_mul _ hu, Matrix.one_mulVec]
    rw [hsol] at h2
    simp only [List.map_cons, List.map_nil, List.ofFn_succ, List.ofFn_zero] at h2
    obtain ⟨l, rfl, hl⟩ := List.map_eq_singleton_iff.1 h2
    obtain ⟨s, l', rfl, hs, hl'⟩ := List.map_eq_cons_iff.1 hl
    obtain ⟨t, l'', rfl, ht, hl''⟩ := List.map_eq_cons_iff.1 hl'
    obtain rfl := List.map_eq_nil_iff.1 hl''
    exact ⟨s, t, h1, by simpa using hs, by simpa using ht⟩
  · intro k hk
    match k, hk with
    | 0, _ => simp
    | 1, _ => simp
    | 2, _ => rw [Matrix.det_fin_two]; simp

/-- `eq(y=2,x=1,x,y)`: the same kind of system, but the first equation does not contain the first variable. Nothing is returned. -/
example (cfg : Cfg) (hprec : 3 ≤ cfg.prec) :
    Finishes (fun n => quickEval cfg n "eq(y=2,x=1,x,y)".toList (Context.default : Context F)) (.ok []) := by
  have htext : "eq(y=2,x=1,x,y)".toList = (Ex.eqs [.var ['y'], .var ['x']] [.num ['2'] none, .num ['1'] none] [['x'], ['y']]).text := by decide
  rw [htext]
  obtain ⟨vs, h1, h2⟩ := system_xy (F := F) cfg hprec (.var ['y']) (.var ['x']) (.num ['2'] none) (.num ['1'] none)
    (wf_name (n := "y") (by decide)) (wf_name (n := "x") (by decide)) (wf_num (s := "2") (by decide)) (wf_num (s := "1") (by decide)) (by decide)
    (fun x => x 1) (fun x => x 0) (fun _ => 2) (fun _ => 1)
    (fun x => .var _ _ (bind_xy _ x).2) (fun x => .var _ _ (bind_xy _ x).1)
    (fun x => denotes_digit '2' 2 2 rfl (by norm_num)) (fun x => denotes_digit '1' 1 1 rfl (by norm_num))
  have hnone : solutionsOf (cfg.prec - 2) (10 ^ (-(cfg.prec : Int))) [fun x : Point 2 => x 1 - 2, fun x => x 0 - 1] = [] := by
    refine List.eq_nil_iff_forall_not_mem.2 fun x hx => ?_
    have hs := C76_small hx
    obtain ⟨j, _, _, rfl⟩ := C76_first_variable rfl (fun x t => by simp) x hx
    have a1 := (hs _ (by simp : (fun x : Point 2 => x 1 - 2) ∈ _)).trans_le (tol_le _)
    have a2 := (hs _ (by simp : (fun x : Point 2 => x 0 - 1) ∈ _)).trans_le (tol_le _)
    beta_reduce at a1 a2
    have b1 : |j - 2| < 1 := by exact_mod_cast a1
    have b2 : |j - 1| < 1 := by exact_mod_cast a2
    rw [abs_lt] at b1 b2
    omega
  rw [hnone] at h2
  have : vs = [] := by simpa using h2
  subst this
  exact h1

/-- `eq(x+y=2,2*x+2*y=4,x,y)`: infinitely many solutions, nothing is returned. -/
example (cfg : Cfg) (hprec : 3 ≤ cfg.prec) :
    Finishes (fun n => quickEval cfg n "eq(x+y=2,2*x+2*y=4,x,y)".toList (Context.default : Context F)) (.ok []) := by
  have htext : "eq(x+y=2,2*x+2*y=4,x,y)".toList = (Ex.eqs [.bin .add (.var ['x']) (.var ['y']),
      .bin .add (.bin .mult (.num ['2'] none) (.var ['x'])) (.bin .mult (.num ['2'] none) (.var ['y']))]
      [.num ['2'] none, .num ['4'] none] [['x'], ['y']]).text := by decide
  rw [htext]
  have d2 : ∀ ρ, Denotes cfg (fun _ => none) [] ρ (.num ['2'] none) [.scalar 2] := fun ρ => denotes_digit '2' 2 2 rfl (by norm_num)
  obtain ⟨vs, h1, h2⟩ := system_xy (F := F) cfg hprec (.bin .add (.var ['x']) (.var ['y']))
    (.bin .add (.bin .mult (.num ['2'] none) (.var ['x'])) (.bin .mult (.num ['2'] none) (.var ['y']))) (.num ['2'] none) (.num ['4'] none)
    ⟨wf_name (n := "x") (by decide), wf_name (n := "y") (by decide), by decide, by decide, nofun⟩
    ⟨⟨wf_num (s := "2") (by decide), wf_name (n := "x") (by decide), by decide, by decide, nofun⟩,
      ⟨wf_num (s := "2") (by decide), wf_name (n := "y") (by decide), by decide, by decide, nofun⟩, by decide, by decide, nofun⟩
    (wf_num (s := "2") (by decide)) (wf_num (s := "4") (by decide)) (by decide)
    (fun x => x 0 + x 1) (fun x => 2 * x 0 + 2 * x 1) (fun _ => 2) (fun _ => 4)
    (fun x => denotes_bin (.var _ _ (bind_xy _ x).1) (.var _ _ (bind_xy _ x).2) (.add (.scalar _ _)))
    (fun x => denotes_bin (denotes_bin (d2 _) (.var _ _ (bind_xy _ x).1) (.mult (.scalar _ _)))
      (denotes_bin (d2 _) (.var _ _ (bind_xy _ x).2) (.mult (.scalar _ _))) (.add (.scalar _ _)))
    (fun x => denotes_digit '2' 2 2 rfl (by norm_num)) (fun x => denotes_digit '4' 4 4 rfl (by norm_num))
  have hfs : [fun x : Point 2 => x 0 + x 1 - 2, fun x => 2 * x 0 + 2 * x 1 - 4] = linear !![1, 1; 2, 2] ![2, 4] := by
    simp [linear, List.ofFn_succ, Matrix.mulVec, dotProduct, Fin.sum_univ_two]
  have hnone : solutionsOf (cfg.prec - 2) (10 ^ (-(cfg.prec : Int))) (linear !![1, 1; 2, 2] ![(2 : ℝ), 4]) = [] := by
    refine C76_gives_up rfl ?_ ?_
    · rw [misfit_linear]
      refine (tol_le _).trans (Real.le_sqrt_of_sq_le ?_)
      simp [Matrix.mulVec, dotProduct, Fin.sum_univ_two]
      norm_num
    · rw [slopes_linear _ _ (tol_pos _).ne', values_linear]
      refine ⟨1, by norm_num, 1, by norm_num, by simp, ?_, fun _ => 2, ?_, ?_⟩
      · intro k hk
        match k, hk with
        | 0, _ => simp [leadMinor]
        | 1, _ => simp [leadMinor]
      · intro s
        fin_cases s <;> simp
      · simp [Matrix.mulVec, dotProduct, Fin.sum_univ_two]
        norm_num
  rw [hfs, hnone] at h2
  have : vs = [] := by simpa using h2
  subst this
  exact h1

end
end MUL
