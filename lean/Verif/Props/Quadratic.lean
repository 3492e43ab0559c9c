import Verif.Props.Readings
import Verif.Props.Denote
import Mathlib.Algebra.QuadraticDiscriminant
/-!
# C99: texts with plus-minus
-/

set_option linter.unusedSectionVars false

namespace MUL
open Out Spec

section
variable {F : Type} [FNum F] [UTable]

/-- **C99**, for texts. -/
theorem C99_text (cfg : Cfg) (e : Ex) (hwf : e.WF) {c : Context F} (h : Offered c (e.tree cfg)) (vs : List (Value F)) :
    Finishes (fun n => quickEval cfg n e.text c) (.ok vs) ↔
      List.Forall₂ (fun t' v => ∀ c' : Context F, Finishes (fun n => eval cfg n t' c') (.ok [v])) (readings c (e.tree cfg)) vs :=
  ((C29_eval cfg e.text c (C09_parse_text (F := F) cfg e hwf)).1 vs).symm.trans (C99_iff cfg h vs)

/-- The readings of `{1,x}&y`, if `x` has the two values `u` and `v` and `y` has the value `z`. -/
example (s u v z : F) : readings (⟨[⟨['x'], [.scalar u, .scalar v]⟩, ⟨['y'], [.scalar z]⟩], []⟩ : Context F)
      (.simple .addSub (.list [.scalar s, .variable ['x']]) (.variable ['y'])) =
    [.simple .add (.scalar s) (.scalar z), .simple .sub (.scalar s) (.scalar z), .simple .add (.scalar u) (.scalar z),
      .simple .sub (.scalar u) (.scalar z), .simple .add (.scalar v) (.scalar z), .simple .sub (.scalar v) (.scalar z)] := rfl

/-- There is a choice at every place of it. -/
example (s u v z : F) : Offered (⟨[⟨['x'], [.scalar u, .scalar v]⟩, ⟨['y'], [.scalar z]⟩], []⟩ : Context F)
      (.simple .addSub (.list [.scalar s, .variable ['x']]) (.variable ['y'])) := by
  refine .simple _ _ _ (.list _ (by simp) ?_) (.variable _ _ rfl (by simp))
  intro a ha
  simp only [List.mem_cons, List.not_mem_nil, or_false] at ha
  rcases ha with rfl | rfl
  · exact .scalar s
  · exact .variable _ _ rfl (by simp)

/-- The occurrences of a variable are independent: if `x` has two values, `x-x` has four readings. -/
example (u v : F) : readings (⟨[⟨['x'], [.scalar u, .scalar v]⟩], []⟩ : Context F) (.simple .sub (.variable ['x']) (.variable ['x'])) =
    [.simple .sub (.scalar u) (.scalar u), .simple .sub (.scalar u) (.scalar v), .simple .sub (.scalar v) (.scalar u),
      .simple .sub (.scalar v) (.scalar v)] := rfl

/-- `1&2&3` has four readings. -/
example (s t u : F) (c : Context F) : PlusMinus c (.simple .addSub (.simple .addSub (.scalar s) (.scalar t)) (.scalar u)) 2 :=
  .simple .addSub _ _ 1 0 (.simple .addSub _ _ 0 0 (.scalar _) (.scalar _)) (.scalar _)

end

section
variable {F : Type} [FNum F] [ExactReal F] [UTable]

/-- `(-b&sqrt(b^2-4*a*c))/(2*a)` -/
def quadraticFormula : Ex :=
  .bin .div (.paren (.bin .addSub (.neg (.var ['b'])) (.fn "sqrt".toList .sqrt (.bin .sub (.bin .pow (.var ['b']) (.num ['2'] none))
    (.bin .mult (.bin .mult (.num ['4'] none) (.var ['a'])) (.var ['c']))))))
    (.paren (.bin .mult (.num ['2'] none) (.var ['a'])))

example : quadraticFormula.text = "(-b&sqrt(b^2-4*a*c))/(2*a)".toList := by decide

theorem quadratic_wf : quadraticFormula.WF := by
  have va : (Ex.var ['a']).WF := wf_name (n := "a") (by decide)
  have vb : (Ex.var ['b']).WF := wf_name (n := "b") (by decide)
  have vc : (Ex.var ['c']).WF := wf_name (n := "c") (by decide)
  have n2 : (Ex.num ['2'] none).WF := wf_num (s := "2") (by decide)
  have n4 : (Ex.num ['4'] none).WF := wf_num (s := "4") (by decide)
  refine ⟨?_, ⟨n2, va, by decide, by decide, nofun⟩, by decide, by decide, nofun⟩
  refine ⟨⟨vb, by decide⟩, ⟨by decide, ?_⟩, by decide, by decide, nofun⟩
  exact ⟨⟨vb, n2, by decide, by decide, nofun⟩, ⟨⟨n4, va, by decide, by decide, nofun⟩, vc, by decide, by decide, nofun⟩, by decide, by decide, nofun⟩

/-- **C99** (with C60): the formula `(-b&sqrt(b^2-4*a*c))/(2*a)` gives both solutions of `a*x^2+b*x+c = 0`, and only these. -/
theorem C99_quadratic (cfg : Cfg) (hprec : 3 ≤ cfg.prec) (φ : Defs) (ρ : Env) (a b c : ℝ) (ha : ρ ['a'] = some [.scalar a])
    (hb : ρ ['b'] = some [.scalar b]) (hc : ρ ['c'] = some [.scalar c]) (h0 : a ≠ 0) (hd : 0 ≤ b ^ 2 - 4 * a * c) (ctx : Context F)
    (hm : Models cfg ctx ρ φ) :
    ∃ r s : F, Finishes (fun n => quickEval cfg n "(-b&sqrt(b^2-4*a*c))/(2*a)".toList ctx) (.ok [.scalar r, .scalar s]) ∧
      ∃ x y : ℝ, Exact.val r = some x ∧ Exact.val s = some y ∧ ∀ t : ℝ, a * t ^ 2 + b * t + c = 0 ↔ t = x ∨ t = y := by
  have hsq : Denotes cfg φ [] ρ (.fn "sqrt".toList .sqrt (.bin .sub (.bin .pow (.var ['b']) (.num ['2'] none))
      (.bin .mult (.bin .mult (.num ['4'] none) (.var ['a'])) (.var ['c'])))) [.scalar (Real.sqrt (b ^ 2 - 4 * a * c))] := by
    refine .fn _ _ _ _ _ (denotes_bin (denotes_bin (.var _ _ hb) (denotes_digit '2' 2 ((2 : Int) : ℝ) rfl (by norm_num))
      (.pow (.int b 2 (Or.inl (by norm_num))))) (denotes_bin (denotes_bin (denotes_digit '4' 4 4 rfl (by norm_num)) (.var _ _ ha)
      (.mult (.scalar _ _))) (.var _ _ hc) (.mult (.scalar _ _))) (.sub (.scalar _ _))) (.cons ?_ .nil)
    have := Fn1.sqrt (b ^ 2 - 4 * a * c) hd
    exact this
  have hnum : Denotes cfg φ [] ρ (.paren (.bin .addSub (.neg (.var ['b'])) (.fn "sqrt".toList .sqrt (.bin .sub (.bin .pow (.var ['b'])
      (.num ['2'] none)) (.bin .mult (.bin .mult (.num ['4'] none) (.var ['a'])) (.var ['c']))))))
      [.scalar (-b + Real.sqrt (b ^ 2 - 4 * a * c)), .scalar (-b - Real.sqrt (b ^ 2 - 4 * a * c))] :=
    .paren _ _ (denotes_bin (.neg _ _ _ (.var _ _ hb) (.cons (.scalar _) .nil)) hsq (.addSub (.scalar _ _)))
  have hden : Denotes cfg φ [] ρ (.paren (.bin .mult (.num ['2'] none) (.var ['a']))) [.scalar (2 * a)] :=
    .paren _ _ (denotes_bin (denotes_digit '2' 2 2 rfl (by norm_num)) (.var _ _ ha) (.mult (.scalar _ _)))
  have h2a : 2 * a ≠ 0 := mul_ne_zero two_ne_zero h0
  have hall : Denotes cfg φ [] ρ quadraticFormula [.scalar ((-b + Real.sqrt (b ^ 2 - 4 * a * c)) / (2 * a)),
      .scalar ((-b - Real.sqrt (b ^ 2 - 4 * a * c)) / (2 * a))] := by
    have := Denotes.bin .div _ _ _ _ [[.scalar ((-b + Real.sqrt (b ^ 2 - 4 * a * c)) / (2 * a))],
      [.scalar ((-b - Real.sqrt (b ^ 2 - 4 * a * c)) / (2 * a))]] hnum hden
      (.cons (.div (.scalar _ _ h2a)) (.cons (.div (.scalar _ _ h2a)) .nil))
    exact this
  obtain ⟨vs, h1, h2⟩ := C60_formula cfg hprec φ ρ quadraticFormula _ quadratic_wf hall ctx hm
  rcases h2 with _ | ⟨⟨r, rfl, hr⟩, h3⟩
  rcases h3 with _ | ⟨⟨s, rfl, hs⟩, h4⟩
  cases h4
  refine ⟨r, s, h1, _, _, hr, hs, fun t => ?_⟩
  have hdisc : discrim a b c = Real.sqrt (b ^ 2 - 4 * a * c) * Real.sqrt (b ^ 2 - 4 * a * c) := by
    rw [Real.mul_self_sqrt hd, discrim]
  have := quadratic_eq_zero_iff h0 hdisc t
  rw [← this, pow_two]

/-- The hypotheses are met: `x^2-3x+2 = 0`. -/
example (cfg : Cfg) (hprec : 3 ≤ cfg.prec) (a b c : F) (ha : Exact.val a = some (1 : ℝ)) (hb : Exact.val b = some (-3 : ℝ))
    (hc : Exact.val c = some (2 : ℝ)) : ∃ r s : F, Finishes (fun n => quickEval cfg n "(-b&sqrt(b^2-4*a*c))/(2*a)".toList
      (⟨[⟨['a'], [.scalar a]⟩, ⟨['b'], [.scalar b]⟩, ⟨['c'], [.scalar c]⟩], []⟩ : Context F)) (.ok [.scalar r, .scalar s]) ∧
      ∃ x y : ℝ, Exact.val r = some x ∧ Exact.val s = some y ∧ ∀ t : ℝ, 1 * t ^ 2 + -3 * t + 2 = 0 ↔ t = x ∨ t = y := by
  refine C99_quadratic cfg hprec (fun _ => none) (fun n => if n = ['a'] then some [.scalar 1] else if n = ['b'] then some [.scalar (-3)]
        else if n = ['c'] then some [.scalar 2] else none) 1 (-3) 2 rfl (by simp) (by simp) (by norm_num) (by norm_num) _ ⟨by simp [NoDupVars], ?_, ?_, nofun⟩
  · intro n os hn
    split at hn
    · next h => subst h; cases hn; exact ⟨_, rfl, .cons ⟨_, rfl, ha⟩ .nil⟩
    · split at hn
      · next h => subst h; cases hn; exact ⟨_, rfl, .cons ⟨_, rfl, hb⟩ .nil⟩
      · split at hn
        · next h => subst h; cases hn; exact ⟨_, rfl, .cons ⟨_, rfl, hc⟩ .nil⟩
        · cases hn
  · intro n hn
    split at hn
    · cases hn
    · next h1 =>
      split at hn
      · cases hn
      · next h2 =>
        split at hn
        · cases hn
        · next h3 =>
          simp only [Context.findVar, Option.map_eq_none_iff, List.find?_eq_none, List.mem_cons, List.not_mem_nil, or_false, beq_iff_eq]
          rintro v (rfl | rfl | rfl)
          · exact Ne.symm h1
          · exact Ne.symm h2
          · exact Ne.symm h3

end
end MUL
