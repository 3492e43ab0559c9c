import Verif.Spec.Combinatorics
import Verif.Model.Eval
import Verif.Proofs.OutLemmas
import Mathlib.Data.Nat.Choose.Basic
/-!
# C03, C04, C49, C58
-/

set_option linter.unusedSimpArgs false

namespace MUL
open Spec

/-! ## C03: combinations -/

theorem cartProd_foldl {α : Type} (arr : List (List α)) (acc : List (List α)) :
    arr.foldl (fun results xs => results.flatMap fun res => xs.map fun el => res ++ [el]) acc =
      acc.flatMap fun r => (choices arr).map (r ++ ·) := by
  induction arr generalizing acc with
  | nil => simp [choices, List.flatMap_singleton]
  | cons xs arr ih =>
    rw [List.foldl_cons, ih, choices, List.flatMap_assoc]
    congr 1
    funext r
    simp only [List.flatMap_map, List.map_flatMap, List.map_map]
    congr 1
    funext x
    congr 1
    funext t
    simp

theorem choices_length {α : Type} {arr : List (List α)} {p : List α} (h : p ∈ choices arr) : p.length = arr.length := by
  induction arr generalizing p with
  | nil => simp only [choices, List.mem_cons, List.not_mem_nil, or_false] at h; subst h; rfl
  | cons xs arr ih =>
    simp only [choices, List.mem_flatMap, List.mem_map] at h
    obtain ⟨x, _, q, hq, rfl⟩ := h
    simp [ih hq]

theorem cartProd_eq_choices {α : Type} (arr : List (List α)) : cartProd arr = choices arr := by
  unfold cartProd
  rw [cartProd_foldl]
  simp

theorem choices_map {α β : Type} (f : α → β) (arr : List (List α)) :
    choices (arr.map (List.map f)) = (choices arr).map (List.map f) := by
  induction arr with
  | nil => rfl
  | cons xs arr ih =>
    simp only [List.map_cons, choices, ih, List.flatMap_map, List.map_flatMap, List.map_map]
    congr 1

/-- All position tuples, in the order in which the tuples are produced. -/
def positions {α : Type} (arr : List (List α)) : List (List Nat) :=
  choices (arr.map fun xs => List.range xs.length)

theorem mem_choices {α : Type} {arr : List (List α)} {t : List α} :
    t ∈ choices arr ↔ List.Forall₂ (fun x xs => x ∈ xs) t arr := by
  induction arr generalizing t with
  | nil => simp [choices]
  | cons xs arr ih =>
    simp only [choices, List.mem_flatMap, List.mem_map]
    constructor
    · rintro ⟨x, hx, t', ht', rfl⟩
      exact .cons hx (ih.1 ht')
    · intro h
      cases h with
      | cons hx ht => exact ⟨_, hx, _, ih.2 ht, rfl⟩

theorem choices_ranges_sorted (ns : List Nat) :
    (choices (ns.map List.range)).Pairwise LexLt := by
  induction ns with
  | nil => simp [choices]
  | cons n ns ih =>
    simp only [List.map_cons, choices]
    rw [List.pairwise_flatMap]
    constructor
    · intro x _
      rw [List.pairwise_map]
      exact ih.imp fun h => .tail h
    · refine List.pairwise_lt_range.imp ?_
      intro a b hab x hx y hy
      simp only [List.mem_map] at hx hy
      obtain ⟨_, _, rfl⟩ := hx
      obtain ⟨_, _, rfl⟩ := hy
      exact .head hab

theorem LexLt.irrefl (a : List Nat) : ¬ LexLt a a := by
  induction a with
  | nil => intro h; cases h
  | cons x a ih =>
    intro h
    cases h with
    | head h => exact absurd h (Nat.lt_irrefl _)
    | tail h => exact ih h

/-- **C03.** `cart_prod` enumerates exactly the tuples that pick one element of each list: there is a
list of position tuples, strictly increasing in lexicographic order (so no position tuple occurs twice,
the last position varies fastest), that contains every choice of positions, and the `i`-th result is
picked by the `i`-th position tuple. -/
theorem C03_combinations {α : Type} (arr : List (List α)) :
    ∃ pos : List (List Nat),
      pos.Pairwise LexLt ∧
      (∀ p, p ∈ pos ↔ ∃ t, Picks arr p t) ∧
      List.Forall₂ (fun p t => Picks arr p t) pos (cartProd arr) := by
  refine ⟨positions arr, ?_, ?_, ?_⟩
  · have := choices_ranges_sorted (arr.map List.length)
    simpa [positions, List.map_map, Function.comp_def] using this
  · intro p
    unfold positions
    rw [mem_choices]
    induction arr generalizing p with
    | nil =>
      constructor
      · intro h; cases h; exact ⟨[], .nil⟩
      · rintro ⟨t, h⟩; cases h; exact .nil
    | cons xs arr ih =>
      constructor
      · intro h
        cases h with
        | cons hx ht =>
          obtain ⟨t, ht⟩ := (ih _).1 ht
          have hx := List.mem_range.1 hx
          exact ⟨_, .cons (List.getElem?_eq_getElem hx) ht⟩
      · rintro ⟨t, h⟩
        cases h with
        | cons hx ht =>
          refine .cons ?_ ((ih _).2 ⟨_, ht⟩)
          rw [List.mem_range]
          exact (List.getElem?_eq_some_iff.1 hx).1
  · rw [cartProd_eq_choices]
    unfold positions
    induction arr with
    | nil => exact .cons .nil .nil
    | cons xs arr ih =>
      simp only [List.map_cons, choices]
      have hx : ∀ (ys : List α) (k : Nat), (∀ i, (h : i < ys.length) → xs[k + i]? = some ys[i]) →
          List.Forall₂ (fun p t => Picks (xs :: arr) p t)
            ((List.range' k ys.length).flatMap fun x => (choices (arr.map fun xs => List.range xs.length)).map (x :: ·))
            (ys.flatMap fun x => (choices arr).map (x :: ·)) := by
        intro ys
        induction ys with
        | nil => intro k _; exact .nil
        | cons y ys ihy =>
          intro k hk
          simp only [List.length_cons, List.range'_succ, List.flatMap_cons]
          refine List.rel_append ?_ (ihy (k + 1) ?_)
          · rw [List.forall₂_map_left_iff, List.forall₂_map_right_iff]
            refine ih.imp ?_
            intro p t hpt
            exact .cons (by have := hk 0 (by simp); rw [Nat.add_zero] at this; exact this) hpt
          · intro i hi
            have := hk (i + 1) (by simpa using hi)
            rw [Nat.add_assoc, Nat.add_comm 1 i]
            simpa using this
      have := hx xs 0 (by intro i hi; simp [hi])
      rwa [← List.range_eq_range'] at this

/-- **C03** (membership). -/
theorem C03_mem {α : Type} (arr : List (List α)) (t : List α) :
    t ∈ cartProd arr ↔ List.Forall₂ (fun x xs => x ∈ xs) t arr := by
  rw [cartProd_eq_choices, mem_choices]

/-- **C03** (count): the number of results is the product of the numbers of alternatives. -/
theorem C03_count {α : Type} (arr : List (List α)) :
    (cartProd arr).length = (arr.map List.length).prod := by
  rw [cartProd_eq_choices]
  induction arr with
  | nil => rfl
  | cons xs arr ih =>
    simp only [choices, List.length_flatMap, List.length_map, ih, List.map_cons, List.prod_cons]
    simp

/-- **C03** (no alternatives): one empty list of alternatives makes the result empty. -/
theorem C03_empty {α : Type} (arr : List (List α)) : cartProd arr = [] ↔ [] ∈ arr := by
  rw [← List.length_eq_zero_iff, C03_count]
  induction arr with
  | nil => simp
  | cons xs arr ih =>
    rw [List.map_cons, List.prod_cons, Nat.mul_eq_zero, ih, List.mem_cons, List.length_eq_zero_iff]
    exact or_congr_left eq_comm

example : cartProd [[1, 2], [3], [4, 5]] = [[1, 3, 4], [1, 3, 5], [2, 3, 4], [2, 3, 5]] := by decide

/-! ## C04: splitting arguments -/

/-- Depth of one character. -/
def depthOf (c : Char) : Int :=
  if c == '(' || c == '[' || c == '{' then 1 else if c == ')' || c == ']' || c == '}' then -1 else 0

theorem depth_append (s t : Str) : depth (s ++ t) = depth s + depth t := by
  simp only [depth, List.countP_append]; omega

theorem depth_single (c : Char) : depth [c] = depthOf c := by
  unfold depth depthOf
  by_cases h1 : (c == '(' || c == '[' || c == '{') = true
  · have h2 : (c == ')' || c == ']' || c == '}') = false := by
      simp at h1 ⊢
      rcases h1 with (rfl | rfl) | rfl <;> decide
    simp [List.countP_cons, h1, h2]
  · by_cases h2 : (c == ')' || c == ']' || c == '}') = true
    · simp only [List.countP_cons, List.countP_nil, h1, h2, if_true, if_false]; simp
    · simp only [List.countP_cons, List.countP_nil, h1, h2, if_false]; simp

/-- `getArgs` as a recursion that returns the first piece and the rest. -/
def splitTop : Str → Int → Str × List Str
  | [], _ => ([], [])
  | c :: rest, d =>
    let r := splitTop rest (d + depthOf c)
    if d = 0 ∧ c = ',' then ([], r.1 :: r.2) else (c :: r.1, r.2)

theorem getArgsLoop_eq (s : Str) (d : Int) (buf : Str) (args : List Str) :
    getArgsLoop s d buf args = args ++ (buf ++ (splitTop s d).1) :: (splitTop s d).2 := by
  induction s generalizing d buf args with
  | nil => simp [getArgsLoop, splitTop]
  | cons c s ih =>
    rw [getArgsLoop, ih]
    have hd : (if (c == '(' || c == '[' || c == '{') = true then d + 1
        else if (c == ')' || c == ']' || c == '}') = true then d - 1 else d) = d + depthOf c := by
      unfold depthOf
      split
      · rfl
      · split
        · omega
        · omega
    rw [hd]
    rw [splitTop]
    by_cases h : d = 0 ∧ c = ','
    · have h' : (d == 0 && c == ',') = true := by simp [h.1, h.2]
      simp only [h', h, if_true, and_self]
      simp
    · have h' : (d == 0 && c == ',') = false := by
        simp only [Bool.and_eq_false_imp, beq_iff_eq, beq_eq_false_iff_ne]
        intro h1 h2; exact h ⟨h1, h2⟩
      simp only [h', h, if_false]
      simp

theorem getArgs_eq (s : Str) : getArgs s = (splitTop s 0).1 :: (splitTop s 0).2 := by
  unfold getArgs; rw [getArgsLoop_eq]; simp

theorem getArgs_ne_nil (s : Str) : getArgs s ≠ [] := by rw [getArgs_eq]; simp

theorem splitTop_join (s : Str) (d : Int) :
    [','].intercalate ((splitTop s d).1 :: (splitTop s d).2) = s := by
  induction s generalizing d with
  | nil => simp [splitTop, List.intercalate]
  | cons c s ih =>
    rw [splitTop]
    have := ih (d + depthOf c)
    split
    · rename_i h
      simp only
      rw [List.intercalate] at this ⊢
      simp only [List.intersperse_cons_cons, List.flatten_cons]
      rw [this]; simp [h.2]
    · simp only
      generalize splitTop s (d + depthOf c) = r at this ⊢
      obtain ⟨p, ps⟩ := r
      cases ps with
      | nil => simp [List.intercalate] at this ⊢; exact this
      | cons q qs =>
        simp only [List.intercalate, List.intersperse_cons_cons, List.flatten_cons, List.cons_append] at this ⊢
        rw [this]

/-- **C04** (joining): the pieces, joined with commas, are the argument string; there is at least one. -/
theorem C04_join (s : Str) : [','].intercalate (getArgs s) = s ∧ getArgs s ≠ [] := by
  refine ⟨?_, getArgs_ne_nil s⟩
  rw [getArgs_eq]
  exact splitTop_join s 0

theorem sepPos_cons_succ (p : Str) (ps : List Str) (k : Nat) :
    sepPos (p :: ps) (k + 1) = p.length + 1 + sepPos ps k := by
  simp only [sepPos, List.take_succ_cons, List.map_cons, List.sum_cons]; omega

theorem sepPos_cons_cons (c : Char) (p : Str) (ps : List Str) (k : Nat) :
    sepPos ((c :: p) :: ps) k = 1 + sepPos (p :: ps) k := by
  simp only [sepPos, List.take_succ_cons, List.map_cons, List.sum_cons, List.length_cons]; omega

theorem splitTop_cuts (s : Str) (d : Int) (i : Nat) :
    (s[i]? = some ',' ∧ d + depth (s.take i) = 0) ↔
      ∃ k, k < (splitTop s d).2.length ∧ sepPos ((splitTop s d).1 :: (splitTop s d).2) k = i := by
  induction s generalizing d i with
  | nil => simp [splitTop]
  | cons c s ih =>
    rw [splitTop]
    cases i with
    | zero =>
      simp only [List.length_cons, Nat.zero_lt_succ, getElem?_pos, List.getElem_cons_zero,
        Option.some.injEq, List.take_zero]
      have h0 : depth [] = 0 := rfl
      rw [h0, Int.add_zero]
      by_cases h : d = 0 ∧ c = ','
      · simp only [h, and_self, if_true]
        simp only [true_iff]
        exact ⟨0, by simp, by simp [sepPos]⟩
      · simp only [h, if_false]
        constructor
        · intro h'; exact absurd h'.symm h
        · rintro ⟨k, hk, hs⟩
          rw [sepPos_cons_cons] at hs
          omega
    | succ i =>
      have hd : d + depth ((c :: s).take (i + 1)) = (d + depthOf c) + depth (s.take i) := by
        rw [List.take_succ_cons]
        have : depth (c :: s.take i) = depth [c] + depth (s.take i) := depth_append [c] _
        rw [this, depth_single]; omega
      rw [hd, List.getElem?_cons_succ, ih (d + depthOf c) i]
      by_cases h : d = 0 ∧ c = ','
      · simp only [h, and_self, if_true]
        constructor
        · rintro ⟨k, hk, hs⟩
          refine ⟨k + 1, by simpa using hk, ?_⟩
          rw [sepPos_cons_succ]
          simp only [List.length_nil]
          omega
        · rintro ⟨k, hk, hs⟩
          cases k with
          | zero => simp [sepPos] at hs
          | succ k =>
            rw [sepPos_cons_succ] at hs
            refine ⟨k, by simpa using hk, ?_⟩
            simp only [List.length_nil] at hs
            omega
      · simp only [h, if_false]
        constructor
        · rintro ⟨k, hk, hs⟩
          refine ⟨k, hk, ?_⟩
          rw [sepPos_cons_cons]; omega
        · rintro ⟨k, hk, hs⟩
          rw [sepPos_cons_cons] at hs
          exact ⟨k, hk, by omega⟩

/-- **C04** (cuts): the positions at which the string is cut are exactly its top-level commas. -/
theorem C04_cuts (s : Str) (i : Nat) :
    TopComma s i ↔ ∃ k, k + 1 < (getArgs s).length ∧ sepPos (getArgs s) k = i := by
  unfold TopComma
  have := splitTop_cuts s 0 i
  rw [Int.zero_add] at this
  rw [this, getArgs_eq]
  simp

theorem sepPos_lt {pieces : List Str} {k l : Nat} (h : k < l) : sepPos pieces k < sepPos pieces l := by
  unfold sepPos
  have : ((pieces.take (k + 1)).map List.length).sum ≤ ((pieces.take (l + 1)).map List.length).sum := by
    have : pieces.take (l + 1) = pieces.take (k + 1) ++ (pieces.take (l + 1)).drop (k + 1) := by
      conv_lhs => rw [← List.take_append_drop (k + 1) (pieces.take (l + 1))]
      rw [List.take_take]
      congr 2
      omega
    rw [this, List.map_append, List.sum_append]
    omega
  omega

/-- **C04** (count): there is exactly one piece more than there are top-level commas. -/
theorem C04_count (s : Str) :
    ∃ cuts : List Nat, cuts.Nodup ∧ (∀ i, i ∈ cuts ↔ TopComma s i) ∧
      (getArgs s).length = cuts.length + 1 := by
  refine ⟨(List.range ((getArgs s).length - 1)).map (sepPos (getArgs s)), ?_, ?_, ?_⟩
  · rw [List.nodup_iff_pairwise_ne, List.pairwise_map]
    refine List.pairwise_lt_range.imp ?_
    intro a b hab
    exact Nat.ne_of_lt (sepPos_lt hab)
  · intro i
    rw [C04_cuts]
    simp only [List.mem_map, List.mem_range]
    constructor
    · rintro ⟨k, hk, h⟩; exact ⟨k, by omega, h⟩
    · rintro ⟨k, hk, h⟩; exact ⟨k, by omega, h⟩
  · have := getArgs_ne_nil s
    have : (getArgs s).length ≠ 0 := by simpa using this
    simp; omega

example : getArgs "f(a,b),[c,d],x".toList = ["f(a,b)".toList, "[c,d]".toList, "x".toList] := by decide

/-! ## C58: centering -/

/-- **C58.** A string not longer (in bytes) than the width is surrounded by spaces to exactly that
width, the right padding being equal to the left one or one more; a longer one is returned as it is. -/
theorem C58_center (f : Str) (n : Int) :
    ((byteLen f : Int) > n → centerInString f n = f) ∧
    ((byteLen f : Int) ≤ n → ∃ l r : Nat,
      centerInString f n = List.replicate l ' ' ++ f ++ List.replicate r ' ' ∧
      (l : Int) + byteLen f + r = n ∧ (r = l ∨ r = l + 1)) := by
  constructor
  · intro h; simp [centerInString, h]
  · intro h
    have h' : ¬ (byteLen f : Int) > n := by omega
    simp only [centerInString, h', if_false]
    refine ⟨_, _, rfl, ?_, ?_⟩
    · split <;> omega
    · split <;> omega

theorem byteLen_ascii (f : Str) (h : ∀ c ∈ f, c.val < 128) : byteLen f = f.length := by
  induction f with
  | nil => rfl
  | cons c f ih =>
    have hc := h c (by simp)
    have : c.utf8Size = 1 := by
      unfold Char.utf8Size
      have h2 : c.val ≤ 127 := by
        rw [UInt32.le_iff_toNat_le]
        have := UInt32.lt_iff_toNat_lt.1 hc
        simp at this ⊢
        omega
      simp [h2]
    have ih := ih fun c hc => h c (by simp [hc])
    simp only [byteLen, List.map_cons, List.sum_cons, List.length_cons] at *
    omega

/-- **C58** (ASCII): for ASCII text the result has exactly `n` characters. -/
theorem C58_ascii_width (f : Str) (n : Nat) (hf : ∀ c ∈ f, c.val < 128) (h : f.length ≤ n) :
    (centerInString f n).length = n := by
  have hb := byteLen_ascii f hf
  obtain ⟨l, r, he, hl, _⟩ := (C58_center f n).2 (by rw [hb]; exact_mod_cast h)
  rw [he]
  simp
  omega

example : centerInString "abc".toList 6 = " abc  ".toList := by decide

/-! ## C49: choices of equations -/

theorem genComb_eq (arr : List Nat) (len : Nat) (prev : List Nat) :
    (generateCombinations arr len prev =
      (if prev.length = len then [prev] else generateCombinations.combsFrom arr len prev)) := by
  cases arr with
  | nil => simp [generateCombinations, generateCombinations.combsFrom]
  | cons v rest =>
    rw [generateCombinations]
    split
    · rfl
    · rw [generateCombinations.combsFrom]

/-- Combinations of `k` elements in the order of `arr`. -/
def combs : Nat → List Nat → List (List Nat)
  | 0, _ => [[]]
  | _ + 1, [] => []
  | k + 1, v :: rest => (combs k rest).map (v :: ·) ++ combs (k + 1) rest

theorem genComb_combs (arr : List Nat) :
    ∀ (k : Nat) (prev : List Nat),
      generateCombinations arr (prev.length + k) prev = (combs k arr).map (prev ++ ·) ∧
      (0 < k → generateCombinations.combsFrom arr (prev.length + k) prev = (combs k arr).map (prev ++ ·)) := by
  induction arr with
  | nil =>
    intro k prev
    cases k with
    | zero => simp [generateCombinations, combs]
    | succ k => simp [generateCombinations, generateCombinations.combsFrom, combs]
  | cons v rest ih =>
    intro k prev
    have hfrom : 0 < k → generateCombinations.combsFrom (v :: rest) (prev.length + k) prev =
        (combs k (v :: rest)).map (prev ++ ·) := by
      intro hk
      obtain ⟨k, rfl⟩ : ∃ j, k = j + 1 := ⟨k - 1, by omega⟩
      rw [generateCombinations.combsFrom, combs, (ih (k + 1) prev).2 (by omega)]
      have := (ih k (prev ++ [v])).1
      have e : (prev ++ [v]).length + k = prev.length + (k + 1) := by simp; omega
      rw [e] at this
      rw [this]
      simp [List.map_map, Function.comp_def]
    refine ⟨?_, hfrom⟩
    rw [genComb_eq]
    cases k with
    | zero => simp [combs]
    | succ k =>
      rw [if_neg (by omega)]
      exact hfrom (by omega)

theorem genComb_eq_combs (arr : List Nat) (k : Nat) : generateCombinations arr k [] = combs k arr := by
  have := (genComb_combs arr k []).1
  simpa using this

theorem combs_length (k : Nat) (arr : List Nat) : (combs k arr).length = arr.length.choose k := by
  induction arr generalizing k with
  | nil => cases k <;> simp [combs]
  | cons v rest ih =>
    cases k with
    | zero => simp [combs]
    | succ k => simp [combs, ih, Nat.choose_succ_succ]

theorem mem_combs {k : Nat} {arr c : List Nat} : c ∈ combs k arr ↔ c.Sublist arr ∧ c.length = k := by
  induction arr generalizing k c with
  | nil =>
    cases k with
    | zero => simp [combs]
    | succ k =>
      simp only [combs, List.not_mem_nil, List.sublist_nil, false_iff, not_and]
      rintro rfl
      simp
  | cons v rest ih =>
    cases k with
    | zero =>
      simp only [combs, List.mem_singleton]
      constructor
      · rintro rfl; simp
      · rintro ⟨_, h⟩; simpa using h
    | succ k =>
      simp only [combs, List.mem_append, List.mem_map, ih]
      constructor
      · rintro (⟨c', ⟨hs, hl⟩, rfl⟩ | ⟨hs, hl⟩)
        · exact ⟨hs.cons_cons v, by simp [hl]⟩
        · exact ⟨hs.cons v, hl⟩
      · rintro ⟨hs, hl⟩
        cases hs with
        | cons _ h => exact Or.inr ⟨h, hl⟩
        | cons_cons _ h => exact Or.inl ⟨_, ⟨h, by simpa using hl⟩, rfl⟩

theorem combs_sorted (k : Nat) (arr : List Nat) (h : arr.Pairwise (· < ·)) :
    (combs k arr).Pairwise LexLt := by
  induction arr generalizing k with
  | nil => cases k <;> simp [combs]
  | cons v rest ih =>
    cases k with
    | zero => simp [combs]
    | succ k =>
      simp only [combs]
      rw [List.pairwise_append]
      have h' := List.pairwise_cons.1 h
      refine ⟨?_, ih (k + 1) h'.2, ?_⟩
      · rw [List.pairwise_map]
        exact (ih k h'.2).imp fun h => .tail h
      · intro a ha b hb
        simp only [List.mem_map] at ha
        obtain ⟨a', _, rfl⟩ := ha
        obtain ⟨hs, hl⟩ := mem_combs.1 hb
        cases b with
        | nil => simp at hl
        | cons w b =>
          exact .head (h'.1 w (hs.subset (by simp)))

theorem sublist_range {c : List Nat} {m : Nat} :
    c.Sublist (List.range m) ↔ c.Pairwise (· < ·) ∧ ∀ i ∈ c, i < m := by
  constructor
  · intro h
    exact ⟨List.pairwise_lt_range.sublist h, fun i hi => List.mem_range.1 (h.subset hi)⟩
  · rintro ⟨h1, h2⟩
    have : c = (List.range m).filter (fun i => decide (i ∈ c)) := by
      refine List.Perm.eq_of_pairwise ?_ h1 (List.pairwise_lt_range.filter _) ?_
      · intro a b _ _ h h'; omega
      · rw [List.perm_ext_iff_of_nodup]
        · intro a
          simp only [List.mem_filter, List.mem_range, decide_eq_true_eq]
          exact ⟨fun h => ⟨h2 a h, h⟩, fun h => h.2⟩
        · exact h1.imp fun h => Nat.ne_of_lt h
        · exact (List.nodup_range).filter _
    rw [this]
    exact List.filter_sublist

/-- **C49.** The choices of `k` of `m` equations: exactly the strictly increasing index lists of length
`k` below `m`, each once, in lexicographic order, `m choose k` many. -/
theorem C49_combinations (m k : Nat) :
    (∀ c, c ∈ generateCombinations (List.range m) k [] ↔
      c.Pairwise (· < ·) ∧ (∀ i ∈ c, i < m) ∧ c.length = k) ∧
    (generateCombinations (List.range m) k []).Pairwise LexLt ∧
    (generateCombinations (List.range m) k []).length = m.choose k := by
  rw [genComb_eq_combs]
  refine ⟨fun c => ?_, combs_sorted _ _ List.pairwise_lt_range, by simp [combs_length]⟩
  rw [mem_combs, sublist_range, and_assoc]

/-- **C49** (API): a `RootFinder` for `k` variables and `m` equations tries exactly the `k`-element
subsets of the equations, each once and in lexicographic order. -/
theorem C49_root_finder {F : Type} [FNum F] (ev : Evaluator F) (es : List (AST F)) (ctx : Context F)
    (names : List Str) (rf : RootFinder F) (h : RootFinder.new ev es ctx names = .ok rf) :
    rf.expressions = es ∧ rf.searchVarsNames = names ∧
    (∀ c, c ∈ rf.combinations ↔
      c.Pairwise (· < ·) ∧ (∀ i ∈ c, i < es.length) ∧ c.length = names.length) ∧
    rf.combinations.Pairwise LexLt ∧
    rf.combinations.length = es.length.choose names.length := by
  unfold RootFinder.new at h
  split at h
  · cases h
  split at h
  · cases h
  split at h
  · cases h
  split at h
  · cases h
  rename_i hle
  obtain ⟨e0, _, h⟩ := Out.bind_eq_ok.1 h
  obtain ⟨r, _, h⟩ := Out.bind_eq_ok.1 h
  obtain ⟨v, _, h⟩ := Out.bind_eq_ok.1 h
  cases v with
  | vector v => cases h
  | matrix v => cases h
  | scalar s =>
    simp only [Out.ok.injEq] at h
    subst h
    refine ⟨rfl, rfl, ?_⟩
    by_cases hlt : names.length < es.length
    · simp only [hlt, if_true]
      exact C49_combinations es.length names.length
    · have heq : names.length = es.length := by omega
      simp only [hlt, if_false]
      have := C49_combinations es.length es.length
      have hone : generateCombinations (List.range es.length) es.length [] = [List.range es.length] := by
        have hl := this.2.2
        rw [Nat.choose_self] at hl
        obtain ⟨c, hc⟩ := List.length_eq_one_iff.1 hl
        have hm := (this.1 (List.range es.length)).2
          ⟨List.pairwise_lt_range, fun i hi => List.mem_range.1 hi, List.length_range⟩
        rw [hc] at hm ⊢
        simp at hm
        rw [hm]
      rw [hone] at this
      rw [heq]
      exact this

example : generateCombinations (List.range 4) 2 [] = [[0, 1], [0, 2], [0, 3], [1, 2], [1, 3], [2, 3]] := by
  decide

end MUL
