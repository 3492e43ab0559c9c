import Verif.Spec.NewtonRoots
import Verif.Proofs.Quadratic
import Mathlib.Analysis.Convex.Slope
/-!
# Convergence of the search
-/

namespace MUL
open Spec

/-- A step that brings every point of `J` nearer to `s` by the factor `q` ends at a point where the function is small. -/
theorem newton_contracts {f : ℝ → Option ℝ} {g : ℝ → ℝ} {s q L h : ℝ} (J : Set ℝ) (hq : 0 ≤ q) (hL0 : 0 ≤ L) (hf : ∀ x ∈ J, f x = some (g x))
    (hL : ∀ x ∈ J, |g x| ≤ L * |x - s|)
    (hN : ∀ x ∈ J, h ≤ |g x| → ∃ y', f (x + h) = some y' ∧ y' ≠ g x ∧ x - g x * h / (y' - g x) ∈ J ∧ |x - g x * h / (y' - g x) - s| ≤ q * |x - s|)
    (n : Nat) (x : ℝ) (hx : x ∈ J) (hn : L * (q ^ n * |x - s|) < h) : ∃ y ∈ J, newtonFrom f h (n + 1) x = some y ∧ |g y| < h := by
  induction n generalizing x with
  | zero =>
    have h1 : |g x| < h := (hL x hx).trans_lt (by simpa using hn)
    refine ⟨x, hx, ?_, h1⟩
    rw [newtonFrom, hf x hx]
    simp only [if_pos h1]
  | succ n ih =>
    by_cases h1 : |g x| < h
    · refine ⟨x, hx, ?_, h1⟩
      rw [newtonFrom, hf x hx]
      simp only [if_pos h1]
    · obtain ⟨y', e1, e2, e3, e4⟩ := hN x hx (not_lt.1 h1)
      obtain ⟨y, hy, hy', hy''⟩ := ih _ e3 (by
        refine lt_of_le_of_lt (mul_le_mul_of_nonneg_left ?_ hL0) hn
        calc q ^ n * |x - g x * h / (y' - g x) - s| ≤ q ^ n * (q * |x - s|) := mul_le_mul_of_nonneg_left e4 (pow_nonneg hq n)
          _ = q ^ (n + 1) * |x - s| := by ring)
      refine ⟨y, hy, ?_, hy''⟩
      rw [newtonFrom, hf x hx]
      simp only [if_neg h1, e1, if_neg e2]
      exact hy'

/-- Changing the sign of the function changes nothing. -/
theorem newtonFrom_opp (f : ℝ → Option ℝ) (h : ℝ) (n : Nat) (x : ℝ) :
    newtonFrom (fun u => (f u).map fun y => -y) h n x = newtonFrom f h n x := by
  induction n generalizing x with
  | zero => rfl
  | succ n ih =>
    rw [newtonFrom, newtonFrom]
    cases f x with
    | none => rfl
    | some y =>
      simp only [Option.map_some, abs_neg]
      split
      · rfl
      · cases f (x + h) with
        | none => rfl
        | some y' =>
          simp only [Option.map_some, neg_inj]
          split
          · rfl
          · rw [ih, show -y' - -y = -(y' - y) by ring, neg_mul, neg_div_neg_eq]

theorem found_opp (f : ℝ → Option ℝ) (h : ℝ) : found (fun u => (f u).map fun y => -y) h = found f h := by
  unfold found
  simp only [newtonFrom_opp]

theorem mem_found {f : ℝ → Option ℝ} {h y : ℝ} {j : Int} (h1 : -1000 ≤ j) (h2 : j < 1000) (hj : newtonFrom f h 1000 j = some y) : y ∈ found f h := by
  unfold found
  refine List.mem_filterMap.2 ⟨(j + 1000).toNat, List.mem_range.2 (by omega), ?_⟩
  have : (((j + 1000).toNat : ℕ) : ℝ) - 1000 = j := by
    have : (((j + 1000).toNat : ℕ) : Int) = j + 1000 := Int.toNat_of_nonneg (by omega)
    have : (((j + 1000).toNat : ℕ) : ℝ) = ((j + 1000 : Int) : ℝ) := by rw [← this]; norm_cast
    rw [this]
    push_cast
    ring
  rw [this]
  exact hj

theorem slow_power : (19 / 20 : ℝ) ^ 999 ≤ 1 / 10 ^ 22 := by
  have h1 : (19 / 20 : ℝ) ^ 45 ≤ 1 / 10 := by norm_num
  calc (19 / 20 : ℝ) ^ 999 = ((19 / 20) ^ 45) ^ 22 * (19 / 20) ^ 9 := by rw [← pow_mul, ← pow_add]
    _ ≤ (1 / 10) ^ 22 * 1 := by
        refine mul_le_mul (pow_le_pow_left₀ (by positivity) h1 22) (pow_le_one₀ (by norm_num) (by norm_num)) (by positivity) (by positivity)
    _ = 1 / 10 ^ 22 := by norm_num

/-- With rises between `m` and `M`, the size of `g` is between `m` and `M` times the distance from the zero. -/
theorem slopes_zero {g : ℝ → ℝ} {a b m M s x : ℝ} (hs : Slopes g a b m M) (h0 : g s = 0) (hm : 0 < m) (ha : a ≤ s) (hb : s ≤ b) (hxa : a ≤ x) (hxb : x ≤ b) :
    (0 ≤ x - s → m * (x - s) ≤ g x ∧ g x ≤ M * (x - s)) ∧ (x - s ≤ 0 → g x ≤ m * (x - s) ∧ M * (x - s) ≤ g x) ∧
    m * |x - s| ≤ |g x| ∧ |g x| ≤ M * |x - s| := by
  rcases lt_trichotomy x s with h | rfl | h
  · obtain ⟨h1, h2⟩ := hs x s hxa h hb
    rw [h0] at h1 h2
    have hg : g x < 0 := by nlinarith
    refine ⟨fun h' => absurd h' (by linarith), fun _ => ⟨by linarith, by linarith⟩, ?_⟩
    rw [abs_of_neg hg, abs_of_neg (by linarith : x - s < 0)]
    constructor <;> linarith
  · simp [h0]
  · obtain ⟨h1, h2⟩ := hs s x ha h hxb
    rw [h0] at h1 h2
    have hg : 0 < g x := by nlinarith
    refine ⟨fun _ => ⟨by linarith, by linarith⟩, fun h' => absurd h' (by linarith), ?_⟩
    rw [abs_of_pos hg, abs_of_pos (by linarith : 0 < x - s)]
    constructor <;> linarith

/-- One step brings a point nearer if the slopes differ little. -/
theorem near_step {g : ℝ → ℝ} {a b m s x h : ℝ} (hs : Slopes g a b m (39 / 20 * m)) (h0 : g s = 0) (hm : 0 < m) (hh : 0 < h) (ha : a ≤ s) (hb : s ≤ b)
    (hxa : a ≤ x) (hxb : x + h ≤ b) : g (x + h) ≠ g x ∧ |x - g x * h / (g (x + h) - g x) - s| ≤ 19 / 20 * |x - s| := by
  obtain ⟨g1, g2⟩ := hs x (x + h) hxa (by linarith) hxb
  rw [show x + h - x = h by ring] at g1 g2
  have hσ : 0 < g (x + h) - g x := by nlinarith [mul_pos hm hh]
  refine ⟨by linarith, ?_⟩
  have hz' := slopes_zero hs h0 hm ha hb hxa (by linarith : x ≤ b)
  have he : x - g x * h / (g (x + h) - g x) - s = ((x - s) * (g (x + h) - g x) - g x * h) / (g (x + h) - g x) := by
    field_simp
    ring
  rw [he, abs_div, abs_of_pos hσ, div_le_iff₀ hσ]
  rcases le_total 0 (x - s) with hc | hc
  · obtain ⟨z1, z2⟩ := hz'.1 hc
    rw [abs_of_nonneg hc, abs_le]
    constructor
    · nlinarith [mul_le_mul_of_nonneg_left g1 hc, mul_le_mul_of_nonneg_right z2 hh.le]
    · nlinarith [mul_le_mul_of_nonneg_left g2 hc, mul_le_mul_of_nonneg_right z1 hh.le, mul_le_mul_of_nonneg_left g1 hc]
  · obtain ⟨z1, z2⟩ := hz'.2.1 hc
    rw [abs_of_nonpos hc, abs_le]
    constructor
    · nlinarith [mul_le_mul_of_nonpos_left g2 hc, mul_le_mul_of_nonneg_right z1 hh.le, mul_le_mul_of_nonpos_left g1 hc]
    · nlinarith [mul_le_mul_of_nonpos_left g1 hc, mul_le_mul_of_nonneg_right z2 hh.le]

/-- The zero is found. -/
theorem tame_found {f : ℝ → Option ℝ} {g : ℝ → ℝ} {s m h : ℝ} (hh : 0 < h) (hm : 0 < m) (hbig : m ≤ h * 10 ^ 20) (h0 : g s = 0)
    (ht : Tame f g s m h) (h1 : -1000 ≤ s) (h2 : s ≤ 999) : ∃ y ∈ found f h, |y - s| < h / m := by
  have hfin : ∀ d : ℝ, 0 ≤ d → d ≤ 1 → 20 * m * ((19 / 20) ^ 999 * d) < h := by
    intro d hd0 hd
    have hp := slow_power
    have hp0 : (0 : ℝ) ≤ (19 / 20) ^ 999 := by positivity
    generalize (19 / 20 : ℝ) ^ 999 = w at hp hp0
    calc 20 * m * (w * d) ≤ 20 * m * (1 / 10 ^ 22 * 1) := by
          refine mul_le_mul_of_nonneg_left (mul_le_mul hp hd hd0 (by positivity)) (by positivity)
      _ ≤ 20 * (h * 10 ^ 20) * (1 / 10 ^ 22 * 1) := by
          refine mul_le_mul_of_nonneg_right (by linarith) (by positivity)
      _ < h := by nlinarith
  cases ht with
  | near hf hs =>
    have hnear : |s - (round s : ℝ)| ≤ 1 / 2 := abs_sub_round s
    rw [abs_le] at hnear
    have hz : ∀ x, s - 1 / 2 ≤ x → x ≤ s + 1 / 2 + h → _ := fun x ha hb => slopes_zero hs h0 hm (by linarith) (by linarith) ha hb
    obtain ⟨y, hy, hy1, hy2⟩ := newton_contracts (f := f) (g := g) (s := s) (q := 19 / 20) (L := 20 * m) (h := h) {x | s - 1 / 2 ≤ x ∧ x ≤ s + 1 / 2}
      (by norm_num) (by positivity) (fun x hx => hf x hx.1 (by linarith [hx.2])) (fun x hx => by
        refine (hz x hx.1 (by linarith [hx.2])).2.2.2.trans (mul_le_mul_of_nonneg_right (by linarith) (abs_nonneg _)))
      (fun x hx hbig' => by
        obtain ⟨hx1, hx2⟩ := hx
        obtain ⟨hne, key⟩ := near_step hs h0 hm hh (by linarith) (by linarith) hx1 (by linarith : x + h ≤ _)
        refine ⟨_, hf (x + h) (by linarith) (by linarith), hne, ?_, key⟩
        have hxs : |x - s| ≤ 1 / 2 := abs_le.2 ⟨by linarith, by linarith⟩
        have := abs_le.1 (key.trans (by linarith : 19 / 20 * |x - s| ≤ 1 / 2))
        exact ⟨by linarith, by linarith⟩)
      999 (round s) ⟨by linarith, by linarith⟩ (hfin _ (abs_nonneg _) (by rw [abs_le]; constructor <;> linarith))
    refine ⟨y, mem_found (j := round s) ?_ ?_ hy1, ?_⟩
    · by_contra hc
      have : (round s : ℝ) ≤ -1001 := by exact_mod_cast (by omega : round s ≤ -1001)
      linarith
    · by_contra hc
      have : (1000 : ℝ) ≤ round s := by exact_mod_cast (by omega : 1000 ≤ round s)
      linarith
    · rw [lt_div_iff₀ hm]
      have := (hz y hy.1 (by linarith [hy.2])).2.2.1
      linarith
  | convex hf hcv hs =>
    have hc1 := Int.le_ceil s
    have hc2 := Int.ceil_lt_add_one s
    have hz : ∀ x, s ≤ x → x ≤ ⌈s⌉ + h → _ := fun x ha hb => slopes_zero hs h0 hm le_rfl (by linarith) ha hb
    obtain ⟨y, hy, hy1, hy2⟩ := newton_contracts (f := f) (g := g) (s := s) (q := 19 / 20) (L := 20 * m) (h := h) {x | s ≤ x ∧ x ≤ ⌈s⌉}
      (by norm_num) (by positivity) (fun x hx => hf x hx.1 (by linarith [hx.2])) (fun x hx =>
        (hz x hx.1 (by linarith [hx.2])).2.2.2)
      (fun x hx hbig' => by
        obtain ⟨hx1, hx2⟩ := hx
        have hne : s ≠ x := by
          rintro rfl
          rw [h0, abs_zero] at hbig'
          linarith
        have hlt : s < x := lt_of_le_of_ne hx1 hne
        obtain ⟨g1, g2⟩ := hs x (x + h) hx1 (by linarith) (by linarith)
        rw [show x + h - x = h by ring] at g1 g2
        have hσ : 0 < g (x + h) - g x := by nlinarith [mul_pos hm hh]
        obtain ⟨z1, z2⟩ := (hz x hx1 (by linarith)).1 (by linarith)
        have hconv := hcv.slope_mono_adjacent (x := s) (y := x) (z := x + h) ⟨le_rfl, by linarith⟩ ⟨by linarith, by linarith⟩ hlt (by linarith)
        rw [h0, sub_zero, show x + h - x = h by ring, div_le_div_iff₀ (by linarith) hh] at hconv
        have he : x - g x * h / (g (x + h) - g x) - s = ((x - s) * (g (x + h) - g x) - g x * h) / (g (x + h) - g x) := by
          field_simp
          ring
        have hpos : 0 ≤ x - g x * h / (g (x + h) - g x) - s := by
          rw [he]
          exact div_nonneg (by linarith) hσ.le
        have key : x - g x * h / (g (x + h) - g x) - s ≤ 19 / 20 * (x - s) := by
          rw [he, div_le_iff₀ hσ]
          nlinarith [mul_le_mul_of_nonneg_left g2 (by linarith : 0 ≤ x - s), mul_le_mul_of_nonneg_right z1 hh.le]
        refine ⟨_, hf (x + h) (by linarith) (by linarith), by linarith, ⟨by linarith, by nlinarith⟩, ?_⟩
        rw [abs_of_nonneg hpos, abs_of_pos (by linarith : 0 < x - s)]
        exact key)
      999 ⌈s⌉ ⟨by linarith, le_rfl⟩ (hfin _ (abs_nonneg _) (by rw [abs_le]; constructor <;> linarith))
    refine ⟨y, mem_found (j := ⌈s⌉) ?_ ?_ hy1, ?_⟩
    · by_contra hc
      have : (⌈s⌉ : ℝ) ≤ -1001 := by exact_mod_cast (by omega : ⌈s⌉ ≤ -1001)
      linarith
    · have : ⌈s⌉ ≤ 999 := Int.ceil_le.2 (by exact_mod_cast h2)
      omega
    · rw [lt_div_iff₀ hm]
      have := (hz y hy.1 (by linarith [hy.2])).2.2.1
      linarith
  | concave m' hf hcv hs hm' hs' =>
    have hc1 := Int.floor_le s
    have hc2 := Int.lt_floor_add_one s
    have hmin : min (⌊s⌋ : ℝ) (s - h) ≤ s := (min_le_left _ _).trans hc1
    have hz : ∀ x, min (⌊s⌋ : ℝ) (s - h) ≤ x → x ≤ s + h → _ := fun x ha hb => slopes_zero hs h0 hm hmin (by linarith) ha hb
    obtain ⟨y, hy, hy1, hy2⟩ := newton_contracts (f := f) (g := g) (s := s) (q := 19 / 20) (L := 20 * m) (h := h)
      {x | (⌊s⌋ ≤ x ∧ x ≤ s) ∨ |x - s| ≤ h}
      (by norm_num) (by positivity) (fun x hx => by
        rcases hx with hx | hx
        · exact hf x ((min_le_left _ _).trans hx.1) (by linarith [hx.2])
        · rw [abs_le] at hx
          exact hf x ((min_le_right _ _).trans (by linarith)) (by linarith)) (fun x hx => by
        rcases hx with hx | hx
        · exact (hz x ((min_le_left _ _).trans hx.1) (by linarith [hx.2])).2.2.2
        · rw [abs_le] at hx
          exact (hz x ((min_le_right _ _).trans (by linarith)) (by linarith)).2.2.2)
      (fun x hx hbig' => by
        have hnear : |x - s| ≤ h → ∃ y', f (x + h) = some y' ∧ y' ≠ g x ∧
            x - g x * h / (y' - g x) ∈ {x : ℝ | (⌊s⌋ ≤ x ∧ x ≤ s) ∨ |x - s| ≤ h} ∧ |x - g x * h / (y' - g x) - s| ≤ 19 / 20 * |x - s| := by
          intro hx
          have hx' := abs_le.1 hx
          obtain ⟨hne, key⟩ := near_step hs' h0 hm' hh (by linarith) (by linarith) (by linarith : s - h ≤ x) (by linarith : x + h ≤ _)
          exact ⟨_, hf (x + h) ((min_le_right _ _).trans (by linarith)) (by linarith), hne, Or.inr (key.trans (by linarith)), key⟩
        rcases hx with hx | hx
        · by_cases hc : |x - s| ≤ h
          · exact hnear hc
          · obtain ⟨hx1, hx2⟩ := hx
            rw [abs_of_nonpos (by linarith)] at hc
            have hlt : x + h < s := by linarith
            obtain ⟨g1, g2⟩ := hs x (x + h) ((min_le_left _ _).trans hx1) (by linarith) (by linarith)
            rw [show x + h - x = h by ring] at g1 g2
            have hσ : 0 < g (x + h) - g x := by nlinarith [mul_pos hm hh]
            obtain ⟨z1, z2⟩ := (hz x ((min_le_left _ _).trans hx1) (by linarith)).2.1 (by linarith)
            have h1 := hcv.slope_anti_adjacent (x := x) (y := x + h) (z := s) ⟨hx1, hx2⟩ ⟨hc1, le_rfl⟩ (by linarith) hlt
            rw [h0, zero_sub, show x + h - x = h by ring, div_le_div_iff₀ (by linarith) hh] at h1
            have hconv : (x - s) * (g (x + h) - g x) ≤ g x * h := by nlinarith
            have he : x - g x * h / (g (x + h) - g x) - s = ((x - s) * (g (x + h) - g x) - g x * h) / (g (x + h) - g x) := by
              field_simp
              ring
            have hneg : x - g x * h / (g (x + h) - g x) - s ≤ 0 := by
              rw [he]
              exact div_nonpos_of_nonpos_of_nonneg (by linarith) hσ.le
            have key : 19 / 20 * (x - s) ≤ x - g x * h / (g (x + h) - g x) - s := by
              rw [he, le_div_iff₀ hσ]
              nlinarith [mul_le_mul_of_nonpos_left g2 (by linarith : x - s ≤ 0), mul_le_mul_of_nonneg_right z1 hh.le]
            refine ⟨_, hf (x + h) ((min_le_left _ _).trans (by linarith)) (by linarith), by linarith, Or.inl ⟨?_, by linarith⟩, ?_⟩
            · nlinarith
            · rw [abs_of_nonpos hneg, abs_of_nonpos (by linarith : x - s ≤ 0)]
              linarith
        · exact hnear hx)
      999 ⌊s⌋ (Or.inl ⟨le_rfl, hc1⟩) (hfin _ (abs_nonneg _) (by rw [abs_le]; constructor <;> linarith))
    refine ⟨y, mem_found (j := ⌊s⌋) ?_ ?_ hy1, ?_⟩
    · exact Int.le_floor.2 (by exact_mod_cast h1)
    · by_contra hc
      have : (1000 : ℝ) ≤ ⌊s⌋ := by exact_mod_cast (by omega : 1000 ≤ ⌊s⌋)
      linarith
    · rw [lt_div_iff₀ hm]
      have : m * |y - s| ≤ |g y| := by
        rcases hy with hy | hy
        · exact (hz y ((min_le_left _ _).trans hy.1) (by linarith [hy.2])).2.2.1
        · rw [abs_le] at hy
          exact (hz y ((min_le_right _ _).trans (by linarith)) (by linarith)).2.2.1
      linarith

end MUL
