import Verif.Spec.Newton
import Mathlib.Tactic.Linarith
import Mathlib.Tactic.FieldSimp
import Mathlib.Tactic.Positivity
import Mathlib.Tactic.NormNum
/-!
# The iteration on quadratic functions
-/

namespace MUL
open Spec

/-! ### The list of results -/

section
variable (p : Nat)

theorem SameRounded.refl {p : Nat} (x : ℝ) : SameRounded p x x := rfl

open Classical in
theorem distinct_aux (l acc : List ℝ) (hacc : acc.Pairwise fun x y => ¬ SameRounded p x y) :
    let r := l.foldl (fun acc x => if ∃ y ∈ acc, SameRounded p x y then acc else acc ++ [x]) acc
    (r.Pairwise fun x y => ¬ SameRounded p x y) ∧ (∀ x ∈ r, x ∈ acc ∨ x ∈ l) ∧ acc <+: r ∧ ∀ x ∈ l, ∃ y ∈ r, SameRounded p x y := by
  induction l generalizing acc with
  | nil => exact ⟨hacc, fun x hx => Or.inl hx, List.prefix_rfl, by simp⟩
  | cons a l ih =>
    simp only [List.foldl_cons]
    by_cases hc : ∃ y ∈ acc, SameRounded p a y
    · rw [if_pos hc]
      obtain ⟨h1, h2, h3, h4⟩ := ih acc hacc
      refine ⟨h1, fun x hx => (h2 x hx).imp_right (by simp +contextual), h3, ?_⟩
      intro x hx
      rcases List.mem_cons.1 hx with rfl | hx
      · obtain ⟨y, hy, hxy⟩ := hc
        exact ⟨y, h3.subset hy, hxy⟩
      · exact h4 x hx
    · rw [if_neg hc]
      obtain ⟨h1, h2, h3, h4⟩ := ih (acc ++ [a]) (by
        rw [List.pairwise_append]
        refine ⟨hacc, by simp, fun x hx y hy hxy => hc ⟨x, hx, ?_⟩⟩
        rw [List.mem_singleton.1 hy] at hxy
        exact hxy.symm)
      refine ⟨h1, fun x hx => ?_, (List.prefix_append acc [a]).trans h3, ?_⟩
      · rcases h2 x hx with h | h
        · rcases List.mem_append.1 h with h | h
          · exact Or.inl h
          · exact Or.inr (by simp [List.mem_singleton.1 h])
        · exact Or.inr (by simp [h])
      · intro x hx
        rcases List.mem_cons.1 hx with rfl | hx
        · exact ⟨x, h3.subset (by simp), SameRounded.refl x⟩
        · exact h4 x hx

theorem distinct_pairwise (l : List ℝ) : (distinct p l).Pairwise fun x y => ¬ SameRounded p x y := (distinct_aux p l [] .nil).1

theorem distinct_mem (l : List ℝ) : ∀ x ∈ distinct p l, x ∈ l := fun x hx =>
  ((distinct_aux p l [] .nil).2.1 x hx).resolve_left (by simp)

theorem distinct_covers (l : List ℝ) : ∀ x ∈ l, ∃ y ∈ distinct p l, SameRounded p x y := (distinct_aux p l [] .nil).2.2.2

theorem distinct_head (a : ℝ) (l : List ℝ) : ∃ t, distinct p (a :: l) = a :: t := by
  have := (distinct_aux p l [a] (by simp)).2.2.1
  obtain ⟨t, ht⟩ := this
  refine ⟨t, ?_⟩
  unfold distinct
  rw [List.foldl_cons, if_neg (by simp)]
  simpa using ht.symm

/-- Numbers near a decimal number are rounded to it. -/
theorem round_near {x : ℝ} (n : Int) (h : |x - n| < 1 / 2) : roundAway x = n := by
  rw [abs_lt] at h
  unfold roundAway
  split
  · rw [Int.floor_eq_iff]
    constructor <;> linarith
  · rw [neg_eq_iff_eq_neg, Int.floor_eq_iff]
    push_cast
    constructor <;> linarith

theorem round_close (x : ℝ) : |(roundAway x : ℝ) - x| ≤ 1 / 2 := by
  unfold roundAway
  rw [abs_le]
  split
  · have h1 := Int.floor_le (x + 1 / 2)
    have h2 := Int.lt_floor_add_one (x + 1 / 2)
    constructor <;> linarith
  · have h1 := Int.floor_le (-x + 1 / 2)
    have h2 := Int.lt_floor_add_one (-x + 1 / 2)
    push_cast
    constructor <;> linarith

/-- If all results lie in two classes of numbers that are the same after rounding, and the first one lies in the first, there are two
reported ones, one of each class. -/
theorem reported_two {a : ℝ} {l : List ℝ} {N M : Int} (hNM : N ≠ M) (ha : roundAway (a * 10 ^ p) = N)
    (hall : ∀ x ∈ l, roundAway (x * 10 ^ p) = N ∨ roundAway (x * 10 ^ p) = M) (hM : ∃ x ∈ l, roundAway (x * 10 ^ p) = M) :
    ∃ b ∈ l, roundAway (b * 10 ^ p) = M ∧ reported p (a :: l) = [a, b] := by
  obtain ⟨t, ht⟩ := distinct_head p a l
  have hpw := distinct_pairwise p (a :: l)
  have hmem := distinct_mem p (a :: l)
  have hcov := distinct_covers p (a :: l)
  rw [ht] at hpw hmem hcov
  have htM : ∀ x ∈ t, roundAway (x * 10 ^ p) = M ∧ x ∈ l := by
    intro x hx
    have hxa : ¬ SameRounded p a x := List.rel_of_pairwise_cons hpw hx
    have hxl : x ∈ l := by
      rcases List.mem_cons.1 (hmem x (by simp [hx])) with rfl | h
      · exact absurd (SameRounded.refl _) hxa
      · exact h
    refine ⟨(hall x hxl).resolve_left fun hN => hxa ?_, hxl⟩
    unfold SameRounded
    rw [ha, hN]
  obtain ⟨x, hx, hxM⟩ := hM
  obtain ⟨y, hy, hxy⟩ := hcov x (by simp [hx])
  have hyM : roundAway (y * 10 ^ p) = M := hxy.symm.trans hxM
  have hyt : y ∈ t := by
    rcases List.mem_cons.1 hy with rfl | h
    · exact absurd (ha.symm.trans hyM) hNM
    · exact h
  have ht1 : t = [y] := by
    match t, htM, hpw, hyt with
    | [b], _, _, hyt => rw [List.mem_singleton.1 hyt]
    | b :: c :: t, htM, hpw, _ =>
      exfalso
      have h1 := List.rel_of_pairwise_cons (List.pairwise_cons.1 hpw).2 (List.mem_cons_self (a := c) (l := t))
      apply h1
      unfold SameRounded
      rw [(htM b (by simp)).1, (htM c (by simp)).1]
  subst ht1
  refine ⟨y, (htM y (by simp)).2, hyM, ?_⟩
  unfold reported
  rw [ht]
  simp

end

/-! ### Quadratic functions -/

/-- The quadratic function with the zeros `p` and `q`. -/
def quad (a p q u : ℝ) : ℝ := a * (u - p) * (u - q)

theorem quad_comm (a p q u : ℝ) : quad a p q u = quad a q p u := by unfold quad; ring

/-- One step. -/
theorem quad_step {a p q h x : ℝ} (ha : a ≠ 0) (hh : 0 < h) (n : Nat) (hx : ¬ |quad a p q x| < h) (hD : 2 * x + h - p - q ≠ 0) :
    newtonFrom (fun u => some (quad a p q u)) h (n + 1) x =
      newtonFrom (fun u => some (quad a p q u)) h n (p + (x - p) * (x - p + h) / (2 * x + h - p - q)) := by
  have hd : quad a p q (x + h) - quad a p q x = a * h * (2 * x + h - p - q) := by unfold quad; ring
  have hne : quad a p q (x + h) ≠ quad a p q x := by
    intro hc
    rw [hc, sub_self] at hd
    exact (mul_ne_zero (mul_ne_zero ha hh.ne') hD) hd.symm
  rw [newtonFrom]
  simp only [if_neg hx, if_neg hne]
  congr 1
  rw [hd]
  unfold quad
  obtain ⟨D, hDe⟩ : ∃ D, D = 2 * x + h - p - q := ⟨_, rfl⟩
  rw [← hDe] at hD ⊢
  have h1 : a * (x - p) * (x - q) * h / (a * h * D) = (x - p) * (x - q) / D := by
    field_simp
  have h2 : x = p + (x - p) * D / D := by
    field_simp
    ring
  rw [h1]
  nth_rewrite 1 [h2]
  rw [add_sub_assoc, ← sub_div, hDe]
  congr 2
  ring

/-- A region in which the step at least halves the distance to the zero `p` leads to it. -/
theorem quad_converges {a p q h : ℝ} (ha : a ≠ 0) (hh : 0 < h) (I : ℝ → Prop)
    (hI : ∀ x, I x → 2 * x + h - p - q ≠ 0 ∧ I (p + (x - p) * (x - p + h) / (2 * x + h - p - q)) ∧
      |(x - p) * (x - p + h) / (2 * x + h - p - q)| ≤ |x - p| / 2) (k : Nat) (x : ℝ) (hx : I x)
    (hsize : |a| * |x - p| * (|x - p| + |q - p|) < h * 2 ^ k) :
    ∃ y, newtonFrom (fun u => some (quad a p q u)) h (k + 1) x = some y ∧ I y := by
  induction k generalizing x with
  | zero =>
    refine ⟨x, ?_, hx⟩
    rw [newtonFrom]
    simp only
    rw [if_pos]
    have : |quad a p q x| ≤ |a| * |x - p| * (|x - p| + |q - p|) := by
      unfold quad
      rw [abs_mul, abs_mul]
      apply mul_le_mul_of_nonneg_left _ (by positivity)
      have := abs_sub (x - p) (q - p)
      rwa [show x - p - (q - p) = x - q by ring] at this
    simpa using lt_of_le_of_lt this hsize
  | succ k ih =>
    by_cases hs : |quad a p q x| < h
    · refine ⟨x, ?_, hx⟩
      rw [newtonFrom]
      simp only
      rw [if_pos hs]
    · obtain ⟨h1, h2, h3⟩ := hI x hx
      rw [quad_step ha hh _ hs h1]
      apply ih _ h2
      rw [add_sub_cancel_left]
      have hd' : 0 ≤ |(x - p) * (x - p + h) / (2 * x + h - p - q)| := abs_nonneg _
      generalize |(x - p) * (x - p + h) / (2 * x + h - p - q)| = d' at h3 hd' ⊢
      have hd : 0 ≤ |x - p| := abs_nonneg _
      generalize |x - p| = d at *
      have hw : 0 ≤ |q - p| := abs_nonneg _
      generalize |q - p| = w at *
      have ha0 : 0 ≤ |a| := abs_nonneg _
      generalize |a| = A at *
      have key : A * d' * (d' + w) ≤ A * d * (d + w) / 2 := by
        have : A * d' * (d' + w) ≤ A * (d / 2) * (d + w) := by
          apply mul_le_mul
          · exact mul_le_mul_of_nonneg_left h3 ha0
          · linarith
          · linarith
          · positivity
        linarith
      rw [pow_succ] at hsize
      linarith

/-- Near the larger zero. -/
theorem quad_right {p q h : ℝ} (hh : 0 < h) (hpq : h ≤ p - q) (x : ℝ) (hx : p ≤ x) :
    2 * x + h - p - q ≠ 0 ∧ p ≤ p + (x - p) * (x - p + h) / (2 * x + h - p - q) ∧
      |(x - p) * (x - p + h) / (2 * x + h - p - q)| ≤ |x - p| / 2 := by
  have hD : 0 < 2 * x + h - p - q := by linarith
  have he : 0 ≤ x - p := by linarith
  have hn : 0 ≤ (x - p) * (x - p + h) / (2 * x + h - p - q) := by positivity
  refine ⟨hD.ne', by linarith, ?_⟩
  rw [abs_of_nonneg hn, abs_of_nonneg he, div_le_iff₀ hD]
  have : (x - p) * (x - p + h) ≤ (x - p) * ((2 * x + h - p - q) / 2) := mul_le_mul_of_nonneg_left (by linarith) he
  linarith

/-- Near the smaller zero. -/
theorem quad_left {p q h : ℝ} (hh : 0 < h) (hpq : 5 * h ≤ q - p) (x : ℝ) (hx : x ≤ p ∨ 4 * (x - p) + 3 * h ≤ q - p) :
    2 * x + h - p - q ≠ 0 ∧ (p + (x - p) * (x - p + h) / (2 * x + h - p - q) ≤ p ∨
        4 * (p + (x - p) * (x - p + h) / (2 * x + h - p - q) - p) + 3 * h ≤ q - p) ∧
      |(x - p) * (x - p + h) / (2 * x + h - p - q)| ≤ |x - p| / 2 := by
  have hD : 2 * x + h - p - q < 0 := by rcases hx with hx | hx <;> linarith
  have hD' : 0 < -(2 * x + h - p - q) := by linarith
  refine ⟨hD.ne, ?_, ?_⟩
  · by_cases h1 : 0 ≤ (x - p) * (x - p + h)
    · left
      have := div_nonpos_of_nonneg_of_nonpos h1 hD.le
      linarith
    · right
      rw [add_sub_cancel_left]
      have h2 : x - p < 0 := by
        by_contra hc
        exact h1 (mul_nonneg (not_lt.1 hc) (by linarith [not_lt.1 hc]))
      have h3 : 0 < x - p + h := by
        by_contra hc
        exact h1 (mul_nonneg_of_nonpos_of_nonpos h2.le (not_lt.1 hc))
      have h4 : (x - p) * (x - p + h) / (2 * x + h - p - q) ≤ h / 2 := by
        rw [← neg_div_neg_eq, div_le_iff₀ hD']
        have : -((x - p) * (x - p + h)) ≤ h * h := by nlinarith
        have : h * h ≤ h / 2 * -(2 * x + h - p - q) := by
          rw [mul_comm_div]
          exact mul_le_mul_of_nonneg_left (by linarith) hh.le
        linarith
      linarith
  · rw [abs_div, abs_of_neg hD, div_le_iff₀ hD', abs_mul]
    have : |x - p| * |x - p + h| ≤ |x - p| * (-(2 * x + h - p - q) / 2) := by
      apply mul_le_mul_of_nonneg_left _ (abs_nonneg _)
      rw [abs_le]
      rcases hx with hx | hx <;> constructor <;> linarith
    linarith

/-- What is found is near a zero. -/
theorem quad_near {a p q h x : ℝ} (ha : a ≠ 0) (hpq : p < q) (hx : |quad a p q x| < h) :
    |x - p| < 2 * h / (|a| * (q - p)) ∨ |x - q| < 2 * h / (|a| * (q - p)) := by
  have hA : 0 < |a| := abs_pos.2 ha
  have hw : 0 < q - p := by linarith
  have hpos : 0 < |a| * (q - p) := by positivity
  unfold quad at hx
  rw [abs_mul, abs_mul] at hx
  rw [lt_div_iff₀ hpos, lt_div_iff₀ hpos]
  rcases le_total ((q - p) / 2) |x - q| with h1 | h1
  · left
    have : |a| * |x - p| * ((q - p) / 2) ≤ |a| * |x - p| * |x - q| := mul_le_mul_of_nonneg_left h1 (by positivity)
    nlinarith
  · right
    have h2 : (q - p) / 2 ≤ |x - p| := by
      have := abs_sub (x - p) (x - q)
      rw [show x - p - (x - q) = q - p by ring, abs_of_pos hw] at this
      linarith
    have : |a| * |x - q| * ((q - p) / 2) ≤ |a| * |x - q| * |x - p| := mul_le_mul_of_nonneg_left h2 (by positivity)
    nlinarith

theorem newtonFrom_small {f : ℝ → Option ℝ} {h : ℝ} {n : Nat} {x y : ℝ} (hxy : newtonFrom f h n x = some y) :
    ∃ v, f y = some v ∧ |v| < h := by
  induction n generalizing x with
  | zero => simp [newtonFrom] at hxy
  | succ n ih =>
    rw [newtonFrom] at hxy
    cases hx : f x with
    | none => simp [hx] at hxy
    | some v =>
      simp only [hx] at hxy
      split at hxy
      · next hv =>
        cases hxy
        exact ⟨v, hx, hv⟩
      · split at hxy
        · cases hxy
        · split at hxy
          · cases hxy
          · exact ih hxy

theorem found_small {f : ℝ → Option ℝ} {h x : ℝ} (hx : x ∈ found f h) : ∃ v, f x = some v ∧ |v| < h := by
  unfold found at hx
  obtain ⟨k, -, hk⟩ := List.mem_filterMap.1 hx
  exact newtonFrom_small hk

/-- Both zeros are found, the smaller one first. -/
theorem quad_found {a p q h : ℝ} (ha : a ≠ 0) (hh : 0 < h) (hpq : 5 * h ≤ q - p) (hp : -1000 ≤ p) (hq : q ≤ 999)
    (hsize : |a| * 8000000 < h * 2 ^ 999) :
    ∃ y t, found (fun u => some (quad a p q u)) h = y :: t ∧ (y ≤ p ∨ 4 * (y - p) + 3 * h ≤ q - p) ∧ ∃ z ∈ t, q ≤ z := by
  have hw : 0 < q - p := by linarith
  obtain ⟨y, hy1, hy2⟩ := quad_converges ha hh (fun x => x ≤ p ∨ 4 * (x - p) + 3 * h ≤ q - p) (quad_left hh hpq) 999 (-1000)
    (Or.inl hp) (by
      refine lt_of_le_of_lt ?_ hsize
      rw [mul_assoc]
      apply mul_le_mul_of_nonneg_left _ (abs_nonneg a)
      rw [abs_of_nonpos (by linarith), abs_of_pos hw]
      have h1 : -(-1000 - p) ≤ 2000 := by linarith
      have h2 : -(-1000 - p) + (q - p) ≤ 4000 := by linarith
      calc _ ≤ (2000 : ℝ) * 4000 := mul_le_mul h1 h2 (by linarith) (by norm_num)
        _ = 8000000 := by norm_num)
  obtain ⟨z, hz1, hz2⟩ := quad_converges (p := q) (q := p) ha hh (fun x => q ≤ x)
    (quad_right hh (by linarith)) 999 999 hq (by
      refine lt_of_le_of_lt ?_ hsize
      rw [mul_assoc]
      apply mul_le_mul_of_nonneg_left _ (abs_nonneg a)
      rw [abs_of_nonneg (by linarith), abs_of_neg (by linarith : p - q < 0)]
      have h1 : 999 - q ≤ 2000 := by linarith
      have h2 : 999 - q + -(p - q) ≤ 4000 := by linarith
      calc _ ≤ (2000 : ℝ) * 4000 := mul_le_mul h1 h2 (by linarith) (by norm_num)
        _ = 8000000 := by norm_num)
  have hz1 : newtonFrom (fun u => some (quad a p q u)) h (999 + 1) 999 = some z := by
    rw [← hz1]
    congr 1
    funext u
    rw [quad_comm]
  unfold found
  rw [show (2000 : Nat) = 1999 + 1 from rfl, List.range_succ_eq_map]
  rw [List.filterMap_cons_some (f := fun (k : Nat) => newtonFrom (fun u => some (quad a p q u)) h 1000 ((k : ℝ) - 1000)) (b := y)
    (by rw [← hy1]; norm_num)]
  refine ⟨y, _, rfl, hy2, z, ?_, hz2⟩
  rw [List.mem_filterMap]
  refine ⟨1999, List.mem_map.2 ⟨1998, by simp, rfl⟩, ?_⟩
  rw [← hz1]
  norm_num

end MUL
