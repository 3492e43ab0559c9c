import Verif.Proofs.ParserSafe
/-!
# The operator scan on concatenations
-/

set_option linter.unusedSimpArgs false

namespace MUL
open Spec

/-- Unclosed brackets after a piece of text. -/
def brackets (s : Str) : Int := (s.count '[' : Nat) - (s.count ']' : Nat)

theorem brackets_append (s t : Str) : brackets (s ++ t) = brackets s + brackets t := by
  simp only [brackets, List.count_append]; omega

theorem brackets_cons (c : Char) (s : Str) :
    brackets (c :: s) = (if c = '[' then 1 else if c = ']' then -1 else 0) + brackets s := by
  simp only [brackets, List.count_cons]
  by_cases h1 : c = '['
  · subst h1; simp; omega
  · by_cases h2 : c = ']'
    · subst h2; simp; omega
    · simp [h1, h2]

theorem bracesAppend (s t : Str) : braces (s ++ t) = braces s + braces t := by
  simp only [braces, List.count_append]; omega

theorem braces_cons (c : Char) (s : Str) :
    braces (c :: s) = (if c = '{' then 1 else if c = '}' then -1 else 0) + braces s := by
  simp only [braces, List.count_cons]
  by_cases h1 : c = '{'
  · subst h1; simp; omega
  · by_cases h2 : c = '}'
    · subst h2; simp; omega
    · simp [h1, h2]

/-- Last character of `s`, or `d` if it is empty. -/
def lastOr (d : Char) (s : Str) : Char := s.getLast?.getD d

@[simp] theorem lastOr_nil (d : Char) : lastOr d [] = d := rfl

theorem lastOr_cons (d c : Char) (s : Str) : lastOr d (c :: s) = lastOr c s := by
  unfold lastOr
  cases s with
  | nil => rfl
  | cons a s => simp [List.getLast?_cons_cons, List.getLast?_cons]

theorem lastOr_append (d : Char) (s t : Str) : lastOr d (s ++ t) = lastOr (lastOr d s) t := by
  induction s generalizing d with
  | nil => rfl
  | cons c s ih => rw [List.cons_append, lastOr_cons, ih, lastOr_cons]

variable [UTable]

/-- What the scan records at one character: possibly a hidden multiplication, possibly an operator. -/
def scanChar (cs : Str) (i : Nat) (last c : Char) (p b k : Int) : List OpAt :=
  (if p == 0 && b == 0 && k == 0 && isHiddenMult cs i last c then [⟨.hiddenMult, i, 0, 0⟩] else []) ++
  (match getOpSymbol c with
    | some o =>
      if p == 0 && b == 0 && k == 0 && i != cs.length - 1 then
        if i == 0 && o == .sub then [⟨.neg, i, 0, 1⟩] else [⟨o, i, 0, 1⟩]
      else []
    | none => [])

theorem opsLoop_cons (cs : Str) (c : Char) (rest : Str) (i : Nat) (last : Char) (p b k : Int) :
    opsLoop cs (c :: rest) i last p b k =
      scanChar cs i last c p b k ++
        opsLoop cs rest (i + 1) c (p + parens [c]) (b + brackets [c]) (k + braces [c]) := by
  rw [opsLoop, scanChar]
  have hp : parens [c] = _ := parens_cons c []
  have hb : brackets [c] = _ := brackets_cons c []
  have hk : braces [c] = _ := braces_cons c []
  have e1 : parens [] = 0 := rfl
  have e2 : brackets [] = 0 := rfl
  have e3 : braces [] = 0 := rfl
  rw [hp, hb, hk, e1, e2, e3]
  by_cases h1 : c = '('
  · subst h1; simp [getOpSymbol]
  by_cases h2 : c = ')'
  · subst h2; simp [getOpSymbol, Int.sub_eq_add_neg]
  by_cases h3 : c = '['
  · subst h3; simp [getOpSymbol]
  by_cases h4 : c = ']'
  · subst h4; simp [getOpSymbol, Int.sub_eq_add_neg]
  by_cases h5 : c = '{'
  · subst h5; simp [getOpSymbol]
  by_cases h6 : c = '}'
  · subst h6; simp [getOpSymbol, Int.sub_eq_add_neg]
  simp only [h1, h2, h3, h4, h5, h6, beq_iff_eq, if_false, Int.add_zero, List.append_assoc]
  cases getOpSymbol c <;> rfl

theorem opsLoop_append (cs s t : Str) (i : Nat) (last : Char) (p b k : Int) :
    opsLoop cs (s ++ t) i last p b k =
      opsLoop cs s i last p b k ++
        opsLoop cs t (i + s.length) (lastOr last s) (p + parens s) (b + brackets s) (k + braces s) := by
  induction s generalizing i last p b k with
  | nil => simp [opsLoop, parens, brackets, braces]
  | cons c s ih =>
    rw [List.cons_append, opsLoop_cons, opsLoop_cons, ih, List.append_assoc, lastOr_cons]
    have h1 : parens (c :: s) = parens [c] + parens s := parens_append [c] s
    have h2 : brackets (c :: s) = brackets [c] + brackets s := brackets_append [c] s
    have h3 : braces (c :: s) = braces [c] + braces s := bracesAppend [c] s
    rw [h1, h2, h3]
    congr 3 <;> (try simp) <;> omega

/-- Inside any group nothing is recorded. -/
theorem opsLoop_nested (cs s : Str) (i : Nat) (last : Char) (p b k : Int)
    (h : ∀ j < s.length, ¬ (p + parens (s.take j) = 0 ∧ b + brackets (s.take j) = 0 ∧
      k + braces (s.take j) = 0)) :
    opsLoop cs s i last p b k = [] := by
  induction s generalizing i last p b k with
  | nil => rfl
  | cons c s ih =>
    rw [opsLoop_cons, ih]
    · have h0 := h 0 (by simp)
      simp only [List.take_zero] at h0
      have e1 : parens [] = 0 := rfl
      have e2 : brackets [] = 0 := rfl
      have e3 : braces [] = 0 := rfl
      rw [e1, e2, e3, Int.add_zero, Int.add_zero, Int.add_zero] at h0
      have hf : (p == 0 && b == 0 && k == 0) = false := by
        cases hh : (p == 0 && b == 0 && k == 0) with
        | false => rfl
        | true =>
          simp only [Bool.and_eq_true, beq_iff_eq] at hh
          exact absurd ⟨hh.1.1, hh.1.2, hh.2⟩ h0
      rw [List.append_nil]
      simp only [scanChar, hf, Bool.false_and]
      cases getOpSymbol c <;> simp
    · intro j hj
      have := h (j + 1) (by simpa using hj)
      rw [List.take_succ_cons] at this
      have h1 : parens (c :: s.take j) = parens [c] + parens (s.take j) := parens_append [c] _
      have h2 : brackets (c :: s.take j) = brackets [c] + brackets (s.take j) := brackets_append [c] _
      have h3 : braces (c :: s.take j) = braces [c] + braces (s.take j) := bracesAppend [c] _
      rw [h1, h2, h3, ← Int.add_assoc, ← Int.add_assoc, ← Int.add_assoc] at this
      exact this

end MUL
