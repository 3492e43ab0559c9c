import Verif.Proofs.Denote
/-!
# C60: formulas evaluate to what they mean

In exact arithmetic, with exact elementary functions, `quick_eval` of the text of a formula returns the objects the
formula stands for in the textbook semantics of `Verif/Spec/Denote.lean`.
-/

namespace MUL
open Out Spec FArith

section
variable {F : Type} [FNum F] [ExactReal F] [UTable]

/-- **C60.** If the formula `e` means the objects `os` when the variables mean `ρ` and the functions are defined by `φ`,
then evaluating its text in a context that holds these variables and functions succeeds, and the results are these
objects, in this order. -/
theorem C60_formula (cfg : Cfg) (hprec : 3 ≤ cfg.prec) (φ : Defs) (ρ : Env) (e : Ex) (os : List Obj) (hwf : e.WF)
    (h : Denotes cfg φ [] ρ e os) (ctx : Context F) (hm : Models cfg ctx ρ φ) :
    ∃ vs, Finishes (fun n => quickEval cfg n e.text ctx) (.ok vs) ∧ List.Forall₂ Means vs os := by
  obtain ⟨vs, h1, h2⟩ := denotes_eval hprec h hm
  exact ⟨vs, ((C29_eval cfg e.text ctx (C09_parse_text (F := F) cfg e hwf)).1 vs).1 h1, h2⟩

/-- C60, for numbers: a formula that means one number has exactly one result, that number. -/
theorem C60_number (cfg : Cfg) (hprec : 3 ≤ cfg.prec) (φ : Defs) (ρ : Env) (e : Ex) (x : ℝ) (hwf : e.WF)
    (h : Denotes cfg φ [] ρ e [.scalar x]) (ctx : Context F) (hm : Models cfg ctx ρ φ) :
    ∃ a : F, Finishes (fun n => quickEval cfg n e.text ctx) (.ok [.scalar a]) ∧ Exact.val a = some x := by
  obtain ⟨vs, h1, h2⟩ := C60_formula cfg hprec φ ρ e _ hwf h ctx hm
  cases h2 with
  | cons h2 h3 =>
    cases h3
    obtain ⟨a, rfl, ha⟩ := h2
    exact ⟨a, h1, ha⟩

omit [UTable] in
/-- C60: in the default context `pi` is the circle number, `e` Euler's number, and there is nothing else. -/
theorem C60_constants (cfg : Cfg) :
    Models cfg (Context.default : Context F)
      (fun n => if n = ['p', 'i'] then some [.scalar Real.pi] else if n = ['e'] then some [.scalar (Real.exp 1)] else none)
      (fun _ => none) ∧
    (∀ n, n ≠ ['p', 'i'] → n ≠ ['e'] → (Context.default : Context F).findVar n = none) ∧
    ∀ n, (Context.default : Context F).findFun n = none := by
  have habs : ∀ n, n ≠ ['p', 'i'] → n ≠ ['e'] → (Context.default : Context F).findVar n = none := by
    intro n h1 h2
    simp [Context.findVar, Context.default, Ne.symm h1, Ne.symm h2]
  refine ⟨⟨by simp [NoDupVars, Context.default], ?_, ?_, nofun⟩, habs, fun n => rfl⟩
  · intro n os hn
    split at hn
    · next h =>
      subst h
      cases hn
      exact ⟨_, rfl, .cons ⟨_, rfl, ExactReal.val_pi⟩ .nil⟩
    · split at hn
      · next h =>
        subst h
        cases hn
        exact ⟨_, rfl, .cons ⟨_, rfl, ExactReal.val_e⟩ .nil⟩
      · cases hn
  · intro n hn
    split at hn
    · cases hn
    · next h1 =>
      split at hn
      · cases hn
      · next h2 => exact habs n h1 h2

end

/-! ## Examples -/

section
variable {F : Type} [FNum F] [ExactReal F] [UTable]

theorem numeral_digit (c : Char) : Spec.numeral [c] none = ((c.toNat - 48 : Nat) : ℝ) := by
  simp [Spec.numeral, digitsNumber]

theorem denotes_digit {cfg : Cfg} {φ : Defs} {cur : Str} {ρ : Env} (c : Char) (d : Nat) (k : ℝ) (hd : c.toNat - 48 = d) (h : (d : ℝ) = k) :
    Denotes cfg φ cur ρ (.num [c] none) [.scalar k] := by
  have := Denotes.num (cfg := cfg) (φ := φ) (cur := cur) (ρ := ρ) [c] none
  rwa [numeral_digit, hd, h] at this

theorem denotes_bin {cfg : Cfg} {φ : Defs} {cur : Str} {ρ : Env} {op : BinOp} {l r : Ex} {o p : Obj} {rs : List Obj}
    (hl : Denotes cfg φ cur ρ l [o]) (hr : Denotes cfg φ cur ρ r [p]) (h : Op2 op o p rs) : Denotes cfg φ cur ρ (.bin op l r) rs := by
  have := Denotes.bin op l r [o] [p] [rs] hl hr (.cons h .nil)
  simpa using this

/-- **C10** (values): the value of `a/b/c` is `a/(b/c)`. -/
theorem C10_value (cfg : Cfg) (hprec : 3 ≤ cfg.prec) (φ : Defs) (ρ : Env) (a b c : Ex) (x y z : ℝ) (ha : a.WF) (hb : b.WF) (hc : c.WF)
    (la : 5 < a.level) (lb : 5 < b.level) (lc : 5 < c.level) (hx : Denotes cfg φ [] ρ a [.scalar x]) (hy : Denotes cfg φ [] ρ b [.scalar y])
    (hz : Denotes cfg φ [] ρ c [.scalar z]) (hy0 : y ≠ 0) (hz0 : z ≠ 0) (ctx : Context F) (hm : Models cfg ctx ρ φ) :
    ∃ r : F, Finishes (fun n => quickEval cfg n (a.text ++ ['/'] ++ (b.text ++ ['/'] ++ c.text)) ctx) (.ok [.scalar r]) ∧
      Exact.val r = some (x / (y / z)) := by
  have hd : Denotes cfg φ [] ρ (.bin .div a (.bin .div b c)) [.scalar (x / (y / z))] :=
    denotes_bin hx (denotes_bin hy hz (.div (.scalar y z hz0))) (.div (.scalar x (y / z) (div_ne_zero hy0 hz0)))
  obtain ⟨vs, h1, h2⟩ := denotes_eval hprec hd hm
  cases h2 with
  | cons h2 h3 =>
    cases h3
    obtain ⟨r, rfl, hr⟩ := h2
    exact ⟨r, ((C29_eval cfg _ ctx (C10_division_right (F := F) cfg a b c ha hb hc la lb lc)).1 _).1 h1, hr⟩

/-- `8/4/2` is 4. -/
example (cfg : Cfg) (hprec : 3 ≤ cfg.prec) : ∃ r : F,
    Finishes (fun n => quickEval cfg n "8/4/2".toList (Context.empty : Context F)) (.ok [.scalar r]) ∧ Exact.val r = some (4 : ℝ) := by
  have := C10_value (F := F) cfg hprec (fun _ => none) (fun _ => none) (.num ['8'] none) (.num ['4'] none) (.num ['2'] none) 8 4 2
    (wf_num (s := "8") (by decide)) (wf_num (s := "4") (by decide)) (wf_num (s := "2") (by decide)) (by decide) (by decide) (by decide)
    (denotes_digit '8' 8 8 rfl (by norm_num)) (denotes_digit '4' 4 4 rfl (by norm_num)) (denotes_digit '2' 2 2 rfl (by norm_num))
    (by norm_num) (by norm_num) Context.empty ⟨by simp [NoDupVars, Context.empty], nofun, fun _ _ => rfl, nofun⟩
  norm_num at this
  exact this

/-- `2x^2-3*(y+-1)/4-sin(z)` means just that, for all real `x`, `y`, `z`. -/
example (cfg : Cfg) (φ : Defs) (x y z : ℝ) :
    Denotes cfg φ [] (fun n => if n = "x".toList then some [.scalar x] else if n = "y".toList then some [.scalar y]
      else if n = "z".toList then some [.scalar z] else none) exampleEx
      [.scalar (2 * x ^ (2 : Int) - 3 * ((y + -1) / 4) - Real.sin z)] := by
  refine denotes_bin (denotes_bin (denotes_bin (denotes_digit '2' 2 2 rfl (by norm_num)) (denotes_bin (.var _ _ (by rfl))
    (denotes_digit '2' 2 ((2 : Int) : ℝ) rfl (by norm_num)) (.pow (.int x 2 (Or.inl (by norm_num))))) (.juxt (.scalar _ _)))
    (denotes_bin (denotes_digit '3' 3 3 rfl (by norm_num)) (denotes_bin (.paren _ _ (denotes_bin (.var _ [.scalar y] ?_)
    (.neg _ _ _ (denotes_digit '1' 1 1 rfl (by norm_num)) (.cons (.scalar _) .nil)) (.add (.scalar _ _))))
    (denotes_digit '4' 4 4 rfl (by norm_num)) (.div (.scalar _ _ (by norm_num)))) (.mult (.scalar _ _))) (.sub (.scalar _ _)))
    (.fn _ _ _ [.scalar z] _ (.var _ _ ?_) (.cons (.sin z) .nil)) (.sub (.scalar _ _))
  · simp
  · simp

/-- A context that holds three such numbers. -/
example (cfg : Cfg) (a b c : F) (x y z : ℝ) (ha : Exact.val a = some x) (hb : Exact.val b = some y) (hc : Exact.val c = some z) :
    Models cfg ⟨[⟨"x".toList, [.scalar a]⟩, ⟨"y".toList, [.scalar b]⟩, ⟨"z".toList, [.scalar c]⟩], []⟩
      (fun n => if n = "x".toList then some [.scalar x] else if n = "y".toList then some [.scalar y]
        else if n = "z".toList then some [.scalar z] else none) (fun _ => none) := by
  refine ⟨by simp [NoDupVars], ?_, ?_, nofun⟩
  · intro n os hn
    split at hn
    · next h => subst h; cases hn; exact ⟨_, rfl, .cons ⟨_, rfl, ha⟩ .nil⟩
    · split at hn
      · next h => subst h; cases hn; exact ⟨_, rfl, .cons ⟨_, rfl, hb⟩ .nil⟩
      · split at hn
        · next h => subst h; cases hn; exact ⟨_, rfl, .cons ⟨_, rfl, hc⟩ .nil⟩
        · cases hn
  · intro n hn
    split at hn
    · cases hn
    · next h1 =>
      split at hn
      · cases hn
      · next h2 =>
        split at hn
        · cases hn
        · next h3 =>
          simp only [Context.findVar, Option.map_eq_none_iff, List.find?_eq_none, List.mem_cons, List.not_mem_nil, or_false, beq_iff_eq]
          rintro v (rfl | rfl | rfl)
          · exact Ne.symm h1
          · exact Ne.symm h2
          · exact Ne.symm h3

/-- With `f(x) = x^2`, the formula `D(f(x),x,3&1)` means the two difference quotients at 4 and 2; the point of
differentiation has two values, and `f` is called inside the derivative. -/
example (cfg : Cfg) (ρ : Env) :
    Denotes cfg (fun n => if n = ['f'] then some ([['x']], .bin .pow (.var ['x']) (.num ['2'] none)) else none) [] ρ
      (.deriv (.call ['f'] [.var ['x']]) ['x'] (.bin .addSub (.num ['3'] none) (.num ['1'] none)))
      [.scalar (((4 + 10 ^ (-(cfg.prec : Int))) ^ (2 : Int) - 4 ^ (2 : Int)) / 10 ^ (-(cfg.prec : Int))),
       .scalar (((2 + 10 ^ (-(cfg.prec : Int))) ^ (2 : Int) - 2 ^ (2 : Int)) / 10 ^ (-(cfg.prec : Int)))] := by
  have h := Denotes.deriv (cfg := cfg) (cur := [])
    (φ := fun n => if n = ['f'] then some ([['x']], .bin .pow (.var ['x']) (.num ['2'] none)) else none) (ρ := ρ)
    (.call ['f'] [.var ['x']]) ['x'] (.bin .addSub (.num ['3'] none) (.num ['1'] none)) [4, 2]
    (fun (_ : Fin 1) t => t ^ (2 : Int)) ?_ ?_
  · simpa using h
  · have := denotes_bin (cfg := cfg) (φ := fun n => if n = ['f'] then some ([['x']], .bin .pow (.var ['x']) (.num ['2'] none)) else none)
      (cur := []) (ρ := ρ) (denotes_digit '3' 3 3 rfl (by norm_num)) (denotes_digit '1' 1 1 rfl (by norm_num)) (.addSub (.scalar _ _))
    convert this using 2 <;> norm_num
  · intro t _ u _
    have := Denotes.call (cfg := cfg) (cur := [])
      (φ := fun n => if n = ['f'] then some ([['x']], .bin .pow (.var ['x']) (.num ['2'] none)) else none)
      (ρ := ρ.set ['x'] [.scalar u]) ['f'] [.var ['x']] [['x']] (.bin .pow (.var ['x']) (.num ['2'] none)) [[.scalar u]] rfl
      (fun _ => [.scalar (u ^ (2 : Int))]) (by simp) (by simp) (by simp) rfl ?_ ?_
    · simpa [choices] using this
    · intro i hi
      obtain rfl : i = 0 := by simpa using hi
      exact .var _ _ (by simp [Env.set])
    · intro p hp
      simp only [choices, List.flatMap_cons, List.flatMap_nil, List.map_cons, List.map_nil, List.append_nil, List.mem_cons,
        List.not_mem_nil, or_false] at hp
      subst hp
      exact denotes_bin (.var _ [.scalar u] (by simp [Env.bind])) (denotes_digit '2' 2 ((2 : Int) : ℝ) rfl (by norm_num))
        (.pow (.int u 2 (Or.inl (by norm_num))))

end

end MUL
