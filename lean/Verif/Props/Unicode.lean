import Verif.Props.LatexCells
import Verif.Props.Combinatorics
import Verif.Proofs.OutLemmas
/-!
# C57: pretty printing
-/

namespace MUL

open Spec Out

set_option linter.unusedSectionVars false

theorem splitChar_join {d : Char} {ps : List Str} (hne : ps ≠ []) (h : ∀ p ∈ ps, d ∉ p) :
    splitChar d (join [d] ps) = ps := by
  induction ps with
  | nil => exact absurd rfl hne
  | cons p ps ih =>
    rcases ps with _ | ⟨q, ps⟩
    · have : join [d] [p] = p := by simp [join]
      rw [this, (splitChar_free (h p (by simp)) []).1]
    · have := ih (by simp) (fun p hp => h p (List.mem_cons_of_mem _ hp))
      have hj : join [d] (p :: q :: ps) = p ++ d :: join [d] (q :: ps) := by
        unfold join
        rw [List.intercalate_cons_cons]
        simp
      rw [hj, (splitChar_free (h p (by simp)) _).2, this]

/-- Characters of printed numbers. -/
def NumChar (c : Char) : Prop := c.isAlphanum = true ∨ c = '-' ∨ c = '.' ∨ c = '+'

theorem numChar_ascii {c : Char} (h : NumChar c) : c.val < 128 ∧ c ≠ '\n' ∧ c ≠ ' ' := by
  rcases h with h | h | h | h
  · refine ⟨?_, ?_, ?_⟩
    · simp only [Char.isAlphanum, Char.isAlpha, Char.isUpper, Char.isLower, Char.isDigit, Bool.or_eq_true, Bool.and_eq_true,
        decide_eq_true_eq, ge_iff_le] at h
      rcases h with (⟨h1, h2⟩ | ⟨h1, h2⟩) | ⟨h1, h2⟩ <;>
        exact UInt32.lt_of_le_of_lt h2 (by decide)
    · rintro rfl; exact absurd h (by decide)
    · rintro rfl; exact absurd h (by decide)
  all_goals subst h; decide

section
variable {F : Type} [FNum F] [TextLaws F]

theorem plain_numChars (cfg : Cfg) (x : F) : ∀ c ∈ roundAndFormat cfg x false, NumChar c := by
  have hd : ∀ a : F, ∀ c ∈ FText.display a, NumChar c := by
    intro a c hc
    rcases TextLaws.display_chars a c hc with h | h | h
    · exact Or.inl h
    · exact Or.inr (Or.inl h)
    · exact Or.inr (Or.inr (Or.inl h))
  unfold roundAndFormat
  simp only [Bool.not_false, Bool.and_true]
  split
  · intro c hc
    split at hc
    · rename_i h
      exact TextLaws.exp_chars x c (by rw [h]; exact List.mem_cons_of_mem _ hc)
    · exact TextLaws.exp_chars x c hc
  · split
    · exact fun c hc => hd _ c (List.mem_of_mem_drop hc)
    · exact fun c hc => hd _ c hc

end

theorem maxUnwrap_ok {ε : Type} {l : List Nat} (h : l ≠ []) :
    ∃ M, (Value.maxUnwrap l : Out ε Nat) = .ok M ∧ ∀ x ∈ l, x ≤ M := by
  have key : ∀ (l : List Nat) (n : Nat), n ≤ l.foldl max n ∧ ∀ x ∈ l, x ≤ l.foldl max n := by
    intro l
    induction l with
    | nil => intro n; simp
    | cons a l ih =>
      intro n
      obtain ⟨h1, h2⟩ := ih (max n a)
      rw [List.foldl_cons]
      refine ⟨le_trans (le_max_left _ _) h1, ?_⟩
      intro x hx
      rcases List.mem_cons.1 hx with rfl | hx
      · exact le_trans (le_max_right _ _) h1
      · exact h2 x hx
  rcases l with _ | ⟨a, l⟩
  · exact absurd rfl h
  · refine ⟨_, rfl, ?_⟩
    intro x hx
    rcases List.mem_cons.1 hx with rfl | hx
    · exact (key l x).1
    · exact (key l a).2 x hx

/-- The characters around the content of a line. -/
def Frame (t m b : Char × Char) : Prop := ∀ p ∈ [t, m, b], p.1 ≠ '\n' ∧ p.2 ≠ '\n'

theorem join_length {d : Str} {ps : List Str} {w : Nat} (hne : ps ≠ []) (h : ∀ p ∈ ps, p.length = w) :
    (join d ps).length + d.length = ps.length * (w + d.length) := by
  induction ps with
  | nil => exact absurd rfl hne
  | cons p ps ih =>
    rcases ps with _ | ⟨q, ps⟩
    · simp [join, h p (by simp)]
    · have := ih (by simp) (fun p hp => h p (List.mem_cons_of_mem _ hp))
      unfold join at this ⊢
      rw [List.intercalate_cons_cons, List.length_append, List.length_append, h p (by simp)]
      simp only [List.length_cons] at this ⊢
      linarith

theorem center_chars {f : Str} {n : Int} {c : Char} (h : c ∈ centerInString f n) : c = ' ' ∨ c ∈ f := by
  unfold centerInString at h
  split at h
  · exact Or.inr h
  · simp only [List.mem_append, List.mem_replicate] at h
    rcases h with (h | h) | h
    · exact Or.inl h.2
    · exact Or.inr h
    · exact Or.inl h.2

/-- The rows of the printed grid. -/
def gridLines (name : Option Str) (t m b : Char × Char) (rows : List (List Str)) (W : Nat) : List Str :=
  rows.zipIdx.map fun p =>
    Value.prettyLine name rows.length p.2 t m b (join [' '] (p.1.map fun s => centerInString s W))

theorem mem_join {c : Char} {sep : Str} {ps : List Str} (h : c ∈ join sep ps) : c ∈ sep ∨ ∃ p ∈ ps, c ∈ p := by
  induction ps with
  | nil => simp [join] at h
  | cons p ps ih =>
    rcases ps with _ | ⟨q, ps⟩
    · right
      exact ⟨p, by simp, by simpa [join] using h⟩
    · unfold join at h ih
      rw [List.intercalate_cons_cons] at h
      simp only [List.mem_append] at h
      rcases h with (h | h) | h
      · exact Or.inr ⟨p, by simp, h⟩
      · exact Or.inl h
      · rcases ih h with h | ⟨r, hr, h⟩
        · exact Or.inl h
        · exact Or.inr ⟨r, List.mem_cons_of_mem _ hr, h⟩

theorem grid_no_newline {name : Option Str} {t m b : Char × Char} (hf : Frame t m b) (hn : ∀ n ∈ name, '\n' ∉ n)
    {rows : List (List Str)} (hc : ∀ r ∈ rows, ∀ s ∈ r, ∀ c ∈ s, NumChar c) (W : Nat) :
    ∀ l ∈ gridLines name t m b rows W, '\n' ∉ l := by
  intro l hl hm
  obtain ⟨⟨r, i⟩, hr, rfl⟩ := List.mem_map.1 hl
  have hr' : r ∈ rows := by
    have := List.mem_zipIdx hr
    rw [this.2.2]
    exact List.getElem_mem _
  simp only [Value.prettyLine, List.mem_append, List.mem_singleton] at hm
  rcases hm with ((hm | hm) | hm) | hm
  · split at hm
    · rcases name with _ | n
      · simp [Value.namePrefix] at hm
      · simp only [Value.namePrefix, List.mem_append] at hm
        rcases hm with hm | hm
        · exact hn n rfl hm
        · exact absurd hm (by decide)
    · exact absurd (List.eq_of_mem_replicate hm) (by decide)
  · have := hf t (by simp)
    have := hf m (by simp)
    have := hf b (by simp)
    split at hm
    · exact absurd hm.symm (hf t (by simp)).1
    · split at hm
      · exact absurd hm.symm (hf b (by simp)).1
      · exact absurd hm.symm (hf m (by simp)).1
  · rcases mem_join hm with h | ⟨p, hp, h⟩
    · exact absurd h (by decide)
    · obtain ⟨s, hs, rfl⟩ := List.mem_map.1 hp
      rcases center_chars h with h | h
      · exact absurd h (by decide)
      · exact (numChar_ascii (hc r hr' s hs _ h)).2.1 rfl
  · split at hm
    · exact absurd hm.symm (hf t (by simp)).2
    · split at hm
      · exact absurd hm.symm (hf b (by simp)).2
      · exact absurd hm.symm (hf m (by simp)).2

/-- Width of what stands before the opening symbol in line `i`. -/
def prefixWidth (name : Option Str) (n i : Nat) : Nat :=
  match name with
  | none => 0
  | some s => if i = Value.vMiddle n then s.length + 3 else byteLen s + 3

theorem byteLen_append (s t : Str) : byteLen (s ++ t) = byteLen s + byteLen t := by
  simp [byteLen]

theorem line_length {name : Option Str} {t m b : Char × Char} {rows : List (List Str)} {W k : Nat} (hk : 0 < k)
    (hlen : ∀ r ∈ rows, r.length = k) (hc : ∀ r ∈ rows, ∀ s ∈ r, ∀ c ∈ s, NumChar c)
    (hw : ∀ r ∈ rows, ∀ s ∈ r, byteLen s ≤ W) {i : Nat} {l : Str} (h : (gridLines name t m b rows W)[i]? = some l) :
    l.length + 1 = prefixWidth name rows.length i + 2 + k * (W + 1) := by
  unfold gridLines at h
  rw [List.getElem?_map, List.getElem?_zipIdx] at h
  rcases hr : rows[i]? with _ | r
  · rw [hr] at h
    simp at h
  · rw [hr] at h
    simp only [Option.map_some, Nat.zero_add, Option.some.injEq] at h
    rw [← h]
    have hmem : r ∈ rows := List.mem_of_getElem? hr
    have hj := join_length (d := [' ']) (ps := r.map fun s => centerInString s W) (w := W) (by
        have := hlen r hmem
        intro he
        rw [List.map_eq_nil_iff] at he
        rw [he] at this
        simp at this
        omega) (by
        intro p hp
        obtain ⟨s, hs, rfl⟩ := List.mem_map.1 hp
        have ha : ∀ c ∈ s, c.val < 128 := fun c h => (numChar_ascii (hc r hmem s hs c h)).1
        exact C58_ascii_width s W ha (by rw [← byteLen_ascii s ha]; exact hw r hmem s hs))
    rw [List.length_map, hlen r hmem] at hj
    simp only [List.length_cons, List.length_nil, Nat.zero_add] at hj
    have hp : (if i = Value.vMiddle rows.length ∧ name.isSome = true then Value.namePrefix name
        else List.replicate (byteLen (Value.namePrefix name)) ' ').length = prefixWidth name rows.length i := by
      rcases name with _ | n
      · simp [Value.namePrefix, prefixWidth, byteLen]
      · simp only [Option.isSome_some, and_true, prefixWidth, Value.namePrefix]
        split
        · simp
        · rw [List.length_replicate, byteLen_append]
          rfl
    simp only [Value.prettyLine, List.length_append, List.length_singleton]
    rw [hp]
    omega

theorem gridLines_length (name : Option Str) (t m b : Char × Char) (rows : List (List Str)) (W : Nat) :
    (gridLines name t m b rows W).length = rows.length := by simp [gridLines]

theorem grid_lines {name : Option Str} {t m b : Char × Char} (hf : Frame t m b) (hn : ∀ n ∈ name, '\n' ∉ n)
    {rows : List (List Str)} (hne : rows ≠ []) (hc : ∀ r ∈ rows, ∀ s ∈ r, ∀ c ∈ s, NumChar c) (W : Nat) :
    lines (join ['\n'] (gridLines name t m b rows W)) = gridLines name t m b rows W := by
  refine splitChar_join ?_ (grid_no_newline hf hn hc W)
  intro h
  have := gridLines_length name t m b rows W
  rw [h] at this
  simp only [List.length_nil] at this
  exact hne (List.eq_nil_of_length_eq_zero this.symm)

theorem vMiddle_lt {n : Nat} (h : 0 < n) : Value.vMiddle n < n := by
  unfold Value.vMiddle
  omega

/-- When the lines of a printed grid have the same length. -/
theorem grid_aligned {name : Option Str} {t m b : Char × Char} (hf : Frame t m b) (hn : ∀ n ∈ name, '\n' ∉ n)
    {rows : List (List Str)} (hne : rows ≠ []) {k : Nat} (hk : 0 < k) (hlen : ∀ r ∈ rows, r.length = k)
    (hc : ∀ r ∈ rows, ∀ s ∈ r, ∀ c ∈ s, NumChar c) {W : Nat} (hw : ∀ r ∈ rows, ∀ s ∈ r, byteLen s ≤ W) :
    Aligned (join ['\n'] (gridLines name t m b rows W)) ↔
      (rows.length = 1 ∨ ∀ n ∈ name, byteLen n = n.length) := by
  unfold Aligned
  rw [grid_lines hf hn hne hc W]
  have hpos : 0 < rows.length := List.length_pos_iff.2 hne
  have hget : ∀ i, i < rows.length → ∃ l, (gridLines name t m b rows W)[i]? = some l ∧ l ∈ gridLines name t m b rows W := by
    intro i hi
    rw [← gridLines_length name t m b rows W] at hi
    exact ⟨_, List.getElem?_eq_getElem hi, List.getElem_mem hi⟩
  constructor
  · intro h
    by_cases h1 : rows.length = 1
    · exact Or.inl h1
    · right
      intro n hn'
      cases hn'
      obtain ⟨l1, hl1, hm1⟩ := hget _ (vMiddle_lt hpos)
      have h2 : Value.vMiddle rows.length + 1 < rows.length := by
        unfold Value.vMiddle
        omega
      obtain ⟨l2, hl2, hm2⟩ := hget _ h2
      have e1 := line_length hk hlen hc hw hl1
      have e2 := line_length hk hlen hc hw hl2
      have := h l1 hm1 l2 hm2
      simp only [prefixWidth, if_true] at e1
      simp only [prefixWidth] at e2
      rw [if_neg (by omega)] at e2
      omega
  · intro h a ha b hb
    obtain ⟨i, hi, rfl⟩ := List.getElem_of_mem ha
    obtain ⟨j, hj, rfl⟩ := List.getElem_of_mem hb
    have e1 := line_length hk hlen hc hw (List.getElem?_eq_getElem hi)
    have e2 := line_length hk hlen hc hw (List.getElem?_eq_getElem hj)
    have e3 : prefixWidth name rows.length i = prefixWidth name rows.length j := by
      rcases h with h | h
      · rw [gridLines_length] at hi hj
        have : i = j := by omega
        rw [this]
      · rcases name with _ | n
        · rfl
        · have := h n rfl
          simp only [prefixWidth, this]
          split <;> split <;> rfl
    omega

theorem splitChar_append_left {d : Char} (s t : Str) (hs : d ∉ s) {l : Str} {ls : List Str} (ht : splitChar d t = l :: ls) :
    splitChar d (s ++ t) = (s ++ l) :: ls := by
  induction s with
  | nil => exact ht
  | cons c s ih =>
    simp only [List.mem_cons, not_or] at hs
    have hc : c ≠ d := Ne.symm hs.1
    rw [List.cons_append, splitChar, if_neg hc, ih hs.2]
    rfl

theorem words_blanks (i : Nat) (s : Str) : words (List.replicate i ' ' ++ s) = words s := by
  induction i with
  | zero => rfl
  | succ i ih =>
    rw [List.replicate_succ, List.cons_append, words, splitChar, if_pos rfl, List.filter_cons_of_neg (by simp)]
    exact ih

theorem words_cons {w : Str} (h1 : w ≠ []) (h2 : ' ' ∉ w) (s : Str) : words (w ++ ' ' :: s) = w :: words s := by
  rw [words, (splitChar_free h2 s).2, List.filter_cons_of_pos (by simp [h1])]
  rfl

theorem words_single {w : Str} (h1 : w ≠ []) (h2 : ' ' ∉ w) (j : Nat) : words (w ++ List.replicate j ' ') = [w] := by
  rcases j with _ | j
  · rw [List.replicate_zero, List.append_nil, words, (splitChar_free h2 []).1, List.filter_cons_of_pos (by simp [h1])]
    rfl
  · rw [List.replicate_succ, words_cons h1 h2]
    have := words_blanks j []
    rw [List.append_nil] at this
    rw [this]
    rfl

theorem center_eq (f : Str) (n : Int) : ∃ l r : Nat, centerInString f n = List.replicate l ' ' ++ f ++ List.replicate r ' ' := by
  unfold centerInString
  split
  · exact ⟨0, 0, by simp⟩
  · exact ⟨_, _, rfl⟩

theorem words_row {cs : List Str} (h : ∀ c ∈ cs, c ≠ [] ∧ ' ' ∉ c) (W : Int) :
    words (join [' '] (cs.map fun s => centerInString s W)) = cs := by
  induction cs with
  | nil => rfl
  | cons c cs ih =>
    obtain ⟨h1, h2⟩ := h c (by simp)
    obtain ⟨l, r, he⟩ := center_eq c W
    rcases cs with _ | ⟨c', cs⟩
    · simp only [List.map_cons, List.map_nil]
      have : join [' '] [centerInString c W] = centerInString c W := by simp [join]
      rw [this, he, List.append_assoc, words_blanks, words_single h1 h2]
    · have := ih (fun p hp => h p (List.mem_cons_of_mem _ hp))
      simp only [List.map_cons] at this ⊢
      have hj : join [' '] (centerInString c W :: centerInString c' W :: cs.map fun s => centerInString s W) =
          List.replicate l ' ' ++ (c ++ ' ' :: (List.replicate r ' ' ++
            join [' '] (centerInString c' W :: cs.map fun s => centerInString s W))) := by
        unfold join
        rw [List.intercalate_cons_cons, he]
        have hcomm : ∀ (r : Nat) (u : Str), List.replicate r ' ' ++ (' ' :: u) = ' ' :: (List.replicate r ' ' ++ u) := by
          intro r u
          induction r with
          | zero => rfl
          | succ r ih => rw [List.replicate_succ, List.cons_append, ih]; rfl
        simp only [List.append_assoc, List.singleton_append, hcomm, List.cons_append, List.append_nil]
      rw [hj, words_blanks, words_cons h1 h2, words_blanks, this]

section
variable {F : Type} [FNum F] [TextLaws F] {ε : Type}

theorem displays_ne (cfg : Cfg) (x : F) (hx : FText.displayExp x ≠ [] ∧ FText.displayExp x ≠ ['+']) :
    roundAndFormat cfg x false ≠ [] := by
  unfold roundAndFormat
  simp only [Bool.not_false, Bool.and_true]
  split
  · split
    · rename_i r h
      rintro rfl
      exact hx.2 h
    · exact hx.1
  · split
    · rename_i h
      simp only [Bool.and_eq_true, decide_eq_true_eq] at h
      intro h0
      rw [List.drop_eq_nil_iff] at h0
      have hb := byteLen_ascii (FText.display (Value.roundScalar x ((cfg.prec : Int) - 2))) (by
        intro c hc
        rcases TextLaws.display_chars _ c hc with h | h | h
        · exact (numChar_ascii (Or.inl h)).1
        · exact (numChar_ascii (Or.inr (Or.inl h))).1
        · exact (numChar_ascii (Or.inr (Or.inr (Or.inl h)))).1)
      omega
    · exact TextLaws.display_ne _

/-- Pretty printing of a vector, as a grid with one column. -/
theorem pretty_vector (cfg : Cfg) (v : List F) (hne : v ≠ []) (name : Option Str) :
    ∃ W, ((Value.vector v).prettyPrint cfg name : Out ε Str) =
        .ok (join ['\n'] (gridLines name ('⎛', '⎞') ('⎜', '⎟') ('⎝', '⎠') (v.map fun x => [roundAndFormat cfg x false]) W)) ∧
      ∀ x ∈ v, byteLen (roundAndFormat cfg x false) ≤ W := by
  obtain ⟨M, hM, hle⟩ := maxUnwrap_ok (ε := ε) (l := (v.map fun x => roundAndFormat cfg x false).map byteLen) (by simpa using hne)
  refine ⟨M, ?_, ?_⟩
  · simp only [Value.prettyPrint, hM, ok_bind, gridLines, List.length_map, Out.ok.injEq]
    congr 1
    rw [List.zipIdx_map, List.zipIdx_map, List.map_map, List.map_map]
    refine List.map_congr_left fun p _ => ?_
    simp [join]
  · intro x hx
    exact hle _ (List.mem_map.2 ⟨_, List.mem_map.2 ⟨x, hx, rfl⟩, rfl⟩)

/-- Pretty printing of a rectangular matrix. -/
theorem pretty_matrix (cfg : Cfg) (m : List (List F)) (hne : m ≠ []) {k : Nat} (hk : 0 < k) (hlen : ∀ r ∈ m, r.length = k)
    (name : Option Str) :
    ∃ W, ((Value.matrix m).prettyPrint cfg name : Out ε Str) =
        .ok (join ['\n'] (gridLines name ('⎡', '⎤') ('⎢', '⎥') ('⎣', '⎦')
          (m.map fun r => r.map fun x => roundAndFormat cfg x false) W)) ∧
      ∀ r ∈ m, ∀ x ∈ r, byteLen (roundAndFormat cfg x false) ≤ W := by
  have hrow : ((List.range m.length).mapM fun i => do
      let m0 ← (idx m 0 : Out ε (List F))
      (List.range m0.length).mapM fun j => do
        let r ← (idx m i : Out ε (List F))
        let x ← (idx r j : Out ε F)
        .ok (roundAndFormat cfg x false)) = .ok (m.map fun r => r.map fun x => roundAndFormat cfg x false) := by
    have h0 : (idx m 0 : Out ε (List F)) = .ok (m[0]'(List.length_pos_iff.2 hne)) := idx_lt _
    rw [mapM_ok_of_forall (g := fun i => (m.getD i []).map fun x => roundAndFormat cfg x false)]
    · congr 1
      apply List.ext_getElem
      · simp
      · intro n h1 h2
        simp at h1
        simp [List.getElem?_eq_getElem h1]
    · intro i hi
      have hi := List.mem_range.1 hi
      rw [h0, ok_bind]
      have hl0 : (m[0]'(List.length_pos_iff.2 hne)).length = k := hlen _ (List.getElem_mem _)
      have hli : (m[i]'hi).length = k := hlen _ (List.getElem_mem _)
      rw [mapM_ok_of_forall (g := fun j => (((m.getD i []).map fun x => roundAndFormat cfg x false).getD j []))]
      · congr 1
        have : m.getD i [] = m[i] := by simp [List.getElem?_eq_getElem hi]
        rw [this, hl0]
        apply List.ext_getElem
        · simp [hli]
        · intro n h1 h2
          simp at h1
          have hn : n < m[i].length := by omega
          simp [List.getElem?_eq_getElem hn]
      · intro j hj
        have hj := List.mem_range.1 hj
        have hj' : j < m[i].length := by omega
        rw [idx_lt hi, ok_bind, idx_lt hj', ok_bind]
        simp [List.getElem?_eq_getElem hi, List.getElem?_eq_getElem hj']
  have hw : ∀ r ∈ m, ∃ M, (Value.maxUnwrap ((r.map fun x => roundAndFormat cfg x false).map byteLen) : Out ε Nat) = .ok M ∧
      ∀ x ∈ (r.map fun x => roundAndFormat cfg x false).map byteLen, x ≤ M := by
    intro r hr
    refine maxUnwrap_ok ?_
    have := hlen r hr
    rintro h
    simp at h
    subst h
    simp at this
    omega
  have hws : ∃ ws, ((m.map fun r => r.map fun x => roundAndFormat cfg x false).mapM fun r => (Value.maxUnwrap (r.map byteLen) : Out ε Nat)) = .ok ws ∧
      List.Forall₂ (fun r M => ∀ x ∈ r, byteLen (roundAndFormat cfg x false) ≤ M) m ws := by
    clear hrow hlen hne
    induction m with
    | nil => exact ⟨[], rfl, .nil⟩
    | cons r m ih =>
      obtain ⟨M, h1, h2⟩ := hw r (by simp)
      obtain ⟨ws, h3, h4⟩ := ih (fun r hr => hw r (List.mem_cons_of_mem _ hr))
      refine ⟨M :: ws, ?_, .cons ?_ h4⟩
      · rw [List.map_cons, List.mapM_cons, h1, ok_bind, h3]
        rfl
      · intro x hx
        exact h2 _ (List.mem_map.2 ⟨_, List.mem_map.2 ⟨x, hx, rfl⟩, rfl⟩)
  obtain ⟨ws, hws, hf⟩ := hws
  obtain ⟨M, hM, hle⟩ := maxUnwrap_ok (ε := ε) (l := ws) (by
    rintro rfl
    cases hf
    exact hne rfl)
  refine ⟨M, ?_, ?_⟩
  · simp only [Value.prettyPrint]
    rw [hrow, ok_bind, hws, ok_bind, hM, ok_bind]
    rfl
  · intro r hr x hx
    obtain ⟨i, hi, rfl⟩ := List.getElem_of_mem hr
    have hl : i < ws.length := by rw [← hf.length_eq]; exact hi
    have := hf.get hi hl
    exact le_trans (this x hx) (hle _ (List.getElem_mem _))

theorem frame_round : Frame ('⎛', '⎞') ('⎜', '⎟') ('⎝', '⎠') := by unfold Frame; decide
theorem frame_square : Frame ('⎡', '⎤') ('⎢', '⎥') ('⎣', '⎦') := by unfold Frame; decide

/-- **C57** (without a name): the lines of a pretty-printed vector have the same width. -/
theorem C57_vector (cfg : Cfg) (v : List F) (hne : v ≠ []) :
    ∃ s, ((Value.vector v).asUnicode cfg : Out ε Str) = .ok s ∧ Aligned s ∧ (lines s).length = v.length := by
  obtain ⟨W, h1, h2⟩ := pretty_vector (ε := ε) cfg v hne none
  refine ⟨_, h1, ?_, ?_⟩
  · rw [grid_aligned (k := 1) frame_round (by simp) (by simpa using hne) (by omega) (by simp)]
    · exact Or.inr (by simp)
    · intro r hr s hs
      obtain ⟨x, hx, rfl⟩ := List.mem_map.1 hr
      rw [List.mem_singleton.1 hs]
      exact plain_numChars cfg x
    · intro r hr s hs
      obtain ⟨x, hx, rfl⟩ := List.mem_map.1 hr
      rw [List.mem_singleton.1 hs]
      exact h2 x hx
  · rw [grid_lines frame_round (by simp) (by simpa using hne), gridLines_length, List.length_map]
    intro r hr s hs
    obtain ⟨x, hx, rfl⟩ := List.mem_map.1 hr
    rw [List.mem_singleton.1 hs]
    exact plain_numChars cfg x

/-- **C57** (without a name): the lines of a pretty-printed rectangular matrix have the same width. -/
theorem C57_matrix (cfg : Cfg) (m : List (List F)) (hne : m ≠ []) (k : Nat) (hk : 0 < k) (hlen : ∀ r ∈ m, r.length = k) :
    ∃ s, ((Value.matrix m).asUnicode cfg : Out ε Str) = .ok s ∧ Aligned s ∧ (lines s).length = m.length := by
  obtain ⟨W, h1, h2⟩ := pretty_matrix (ε := ε) cfg m hne hk hlen none
  have hc : ∀ r ∈ (m.map fun r => r.map fun x => roundAndFormat cfg x false), ∀ s ∈ r, ∀ c ∈ s, NumChar c := by
    intro r hr s hs
    obtain ⟨r', hr', rfl⟩ := List.mem_map.1 hr
    obtain ⟨x, hx, rfl⟩ := List.mem_map.1 hs
    exact plain_numChars cfg x
  refine ⟨_, h1, ?_, ?_⟩
  · rw [grid_aligned (k := k) frame_square (by simp) (by simpa using hne) hk ?_ hc]
    · exact Or.inr (by simp)
    · intro r hr s hs
      obtain ⟨r', hr', rfl⟩ := List.mem_map.1 hr
      obtain ⟨x, hx, rfl⟩ := List.mem_map.1 hs
      exact h2 r' hr' x hx
    · intro r hr
      obtain ⟨r', hr', rfl⟩ := List.mem_map.1 hr
      rw [List.length_map, hlen r' hr']
  · rw [grid_lines frame_square (by simp) (by simpa using hne) hc, gridLines_length, List.length_map]

theorem symbol_newline {name : Str} (h : '\n' ∉ name) : '\n' ∉ Value.symbolOf name := by
  unfold Value.symbolOf
  split
  · rename_i p hp
    have hall : ∀ p ∈ Value.varSymbols, '\n' ∉ p.2 := by decide +kernel
    exact hall p (List.mem_of_find?_eq_some hp)
  · exact h

/-- **C57** (symbols): the names of the Greek letters, written with a backslash, are replaced by the italic letter, except
`\epsilon` (bold), `\pi` and `\chi`; in capitals except `\Gamma` (bold) and `\Chi`. -/
theorem C57_symbols (k : Nat) (n : Str) (h : greekNames[k]? = some n) :
    (n ∉ [str! "epsilon", str! "pi", str! "chi"] → Value.symbolOf ('\\' :: n) = [smallGreek k]) ∧
    (n ∉ [str! "gamma", str! "chi"] → Value.symbolOf ('\\' :: capital n) = [capitalGreek k]) := by
  have hk : k < 24 := by
    rcases Nat.lt_or_ge k 24 with h' | h'
    · exact h'
    · rw [List.getElem?_eq_none (by simpa [greekNames] using h')] at h; cases h
  have key : ∀ k < 24, ∀ n ∈ greekNames[k]?,
      (n ∉ [str! "epsilon", str! "pi", str! "chi"] → Value.symbolOf ('\\' :: n) = [smallGreek k]) ∧
      (n ∉ [str! "gamma", str! "chi"] → Value.symbolOf ('\\' :: capital n) = [capitalGreek k]) := by
    decide +kernel
  exact key k hk n h

/-- **C57** (symbols): `pi` is replaced without a backslash; `\pi`, `\chi` and `\Chi` are not replaced. -/
theorem C57_symbols_exceptions : Value.symbolOf (str! "pi") = [smallGreek 15] ∧
    Value.symbolOf (str! "\\epsilon") = [Char.ofNat 0x1D73A] ∧ Value.symbolOf (str! "\\Gamma") = [Char.ofNat 0x1D6AA] ∧
    ∀ n ∈ [str! "\\pi", str! "\\chi", str! "\\Chi"], Value.symbolOf n = n := by
  decide +kernel

/-- **C57** (symbols): every other name is printed as it is. -/
theorem C57_other_names (name : Str) (h0 : name ≠ str! "pi")
    (h : ∀ n ∈ greekNames, name ≠ '\\' :: n ∧ name ≠ '\\' :: capital n) : Value.symbolOf name = name := by
  have hall : ∀ p ∈ Value.varSymbols, p.1 = str! "pi" ∨ ∃ n ∈ greekNames, p.1 = '\\' :: n ∨ p.1 = '\\' :: capital n := by
    decide +kernel
  unfold Value.symbolOf
  have : (Value.varSymbols.find? fun p => name == p.1) = none := by
    rw [List.find?_eq_none]
    intro p hp he
    have he : name = p.1 := by simpa using he
    rcases hall p hp with h1 | ⟨n, hn, h1 | h1⟩
    · exact h0 (he.trans h1)
    · exact (h n hn).1 (he.trans h1)
    · exact (h n hn).2 (he.trans h1)
  rw [this]

/-- **C57** (with a name): the lines are aligned exactly if there is only one, or if the name as printed (Greek names
are replaced by one letter) has as many bytes as characters. -/
theorem C57_vector_named (cfg : Cfg) (v : List F) (hne : v ≠ []) (name : Str) (hn : '\n' ∉ name) :
    ∃ s, ((Value.vector v).asUnicodeAtVar cfg name : Out ε Str) = .ok s ∧
      (Aligned s ↔ (v.length = 1 ∨ byteLen (Value.symbolOf name) = (Value.symbolOf name).length)) := by
  obtain ⟨W, h1, h2⟩ := pretty_vector (ε := ε) cfg v hne (some (Value.symbolOf name))
  refine ⟨_, h1, ?_⟩
  rw [grid_aligned (k := 1) frame_round (by simpa using symbol_newline hn) (by simpa using hne) (by omega) (by simp)]
  · simp
  · intro r hr s hs
    obtain ⟨x, hx, rfl⟩ := List.mem_map.1 hr
    rw [List.mem_singleton.1 hs]
    exact plain_numChars cfg x
  · intro r hr s hs
    obtain ⟨x, hx, rfl⟩ := List.mem_map.1 hr
    rw [List.mem_singleton.1 hs]
    exact h2 x hx

/-- **C57** (with a name): the same for rectangular matrices. -/
theorem C57_matrix_named (cfg : Cfg) (m : List (List F)) (hne : m ≠ []) (k : Nat) (hk : 0 < k)
    (hlen : ∀ r ∈ m, r.length = k) (name : Str) (hn : '\n' ∉ name) :
    ∃ s, ((Value.matrix m).asUnicodeAtVar cfg name : Out ε Str) = .ok s ∧
      (Aligned s ↔ (m.length = 1 ∨ byteLen (Value.symbolOf name) = (Value.symbolOf name).length)) := by
  obtain ⟨W, h1, h2⟩ := pretty_matrix (ε := ε) cfg m hne hk hlen (some (Value.symbolOf name))
  refine ⟨_, h1, ?_⟩
  rw [grid_aligned (k := k) frame_square (by simpa using symbol_newline hn) (by simpa using hne) hk]
  · simp
  · intro r hr
    obtain ⟨r', hr', rfl⟩ := List.mem_map.1 hr
    rw [List.length_map, hlen r' hr']
  · intro r hr s hs
    obtain ⟨r', hr', rfl⟩ := List.mem_map.1 hr
    obtain ⟨x, hx, rfl⟩ := List.mem_map.1 hs
    exact plain_numChars cfg x
  · intro r hr s hs
    obtain ⟨r', hr', rfl⟩ := List.mem_map.1 hr
    obtain ⟨x, hx, rfl⟩ := List.mem_map.1 hs
    exact h2 r' hr' x hx

/-- **C57** (ASCII names): a name in ASCII that is not replaced is printed aligned. -/
theorem C57_ascii (name : Str) (h1 : Ascii name) (h2 : ∀ p ∈ Value.varSymbols, p.1 ≠ name) :
    byteLen (Value.symbolOf name) = (Value.symbolOf name).length := by
  have : Value.symbolOf name = name := by
    unfold Value.symbolOf
    have : (Value.varSymbols.find? fun p => name == p.1) = none := by
      rw [List.find?_eq_none]
      intro p hp
      simpa using (h2 p hp).symm
    rw [this]
  rw [this]
  exact byteLen_ascii name h1

/-- **C57** (refuted for Greek names): every name that is replaced by a symbol gives misaligned vectors of two or
more elements. -/
theorem C57_greek_false (cfg : Cfg) (v : List F) (h2 : 2 ≤ v.length) (p : Str × Str) (hp : p ∈ Value.varSymbols) :
    ∃ s, ((Value.vector v).asUnicodeAtVar cfg p.1 : Out ε Str) = .ok s ∧ ¬ Aligned s := by
  have hall : ∀ p ∈ Value.varSymbols, '\n' ∉ p.1 ∧
      byteLen (Value.symbolOf p.1) ≠ (Value.symbolOf p.1).length := by decide +kernel
  obtain ⟨s, h3, h4⟩ := C57_vector_named (ε := ε) cfg v (by rintro rfl; simp at h2) p.1 (hall p hp).1
  refine ⟨s, h3, fun h => ?_⟩
  rcases h4.1 h with h | h
  · omega
  · exact (hall p hp).2 h

theorem grid_line {name : Option Str} {t m b : Char × Char} {rows : List (List Str)} {W i : Nat} {r : List Str}
    (hr : rows[i]? = some r) (hc : ∀ s ∈ r, s ≠ [] ∧ ' ' ∉ s) :
    ∃ before body, (gridLines name t m b rows W)[i]? =
        some (before ++ [bracketPiece rows.length i t.1 m.1 b.1] ++ body ++ [bracketPiece rows.length i t.2 m.2 b.2]) ∧
      words body = r ∧ (∀ n ∈ name, Middle rows.length i → before = n ++ str! " = ") ∧
      (¬ (name.isSome = true ∧ Middle rows.length i) → ∀ c ∈ before, c = ' ') ∧ (name = none → before = []) := by
  have hi : i < rows.length := by
    rcases Nat.lt_or_ge i rows.length with h | h
    · exact h
    · rw [List.getElem?_eq_none h] at hr; cases hr
  have hmid : i = Value.vMiddle rows.length ↔ Middle rows.length i := by
    unfold Value.vMiddle Middle
    omega
  unfold gridLines
  rw [List.getElem?_map, List.getElem?_zipIdx, hr]
  simp only [Option.map_some, Nat.zero_add, Value.prettyLine]
  have e1 : ∀ x y z : Char, (if i = 0 then x else if i = rows.length - 1 then z else y) = bracketPiece rows.length i x y z := by
    intro x y z
    unfold bracketPiece
    have : i = rows.length - 1 ↔ i + 1 = rows.length := by omega
    simp only [this]
  rw [e1, e1]
  refine ⟨_, _, rfl, words_row hc _, ?_, ?_, ?_⟩
  · intro n hn hm
    rw [Option.mem_def] at hn
    subst hn
    rw [if_pos ⟨hmid.2 hm, rfl⟩]
    rfl
  · intro h c hc'
    rw [if_neg (by rintro ⟨h1, h2⟩; exact h ⟨h2, hmid.1 h1⟩)] at hc'
    exact List.eq_of_mem_replicate hc'
  · rintro rfl
    simp [Value.namePrefix, byteLen]

theorem plain_ne (cfg : Cfg) (x : F) : roundAndFormat cfg x false ≠ [] := by
  unfold roundAndFormat
  simp only [Bool.not_false, Bool.and_true]
  split
  · have h1 := TextLaws.exp_ne x
    split
    · rename_i h
      rw [h] at h1
      simpa using h1
    · intro h
      rw [h] at h1
      exact h1 rfl
  · split
    · rename_i h
      have hd := TextLaws.display_chars (Value.roundScalar x ((cfg.prec : Int) - 2))
      have hl : byteLen (FText.display (Value.roundScalar x ((cfg.prec : Int) - 2))) = _ := byteLen_ascii _ (by
        intro c hc
        refine (numChar_ascii (c := c) ?_).1
        rcases hd c hc with h | h | h
        · exact Or.inl h
        · exact Or.inr (Or.inl h)
        · exact Or.inr (Or.inr (Or.inl h)))
      rw [hl] at h
      simp only [Bool.and_eq_true, decide_eq_true_eq] at h
      intro h2
      have := congrArg List.length h2
      simp only [List.length_drop, List.length_nil] at this
      omega
    · exact TextLaws.display_ne _

/-- **C57** (contents, vectors): line `i` shows element `i` between the pieces of a round bracket; the name and an
equals sign are before the middle line, blanks before the others. -/
theorem C57_vector_lines (cfg : Cfg) (v : List F) (hne : v ≠ []) (name : Str) (hn : '\n' ∉ name) :
    ∃ s, ((Value.vector v).asUnicodeAtVar cfg name : Out ε Str) = .ok s ∧ (lines s).length = v.length ∧
      ∀ (i : Nat) (x : F), v[i]? = some x → ∃ before body,
        (lines s)[i]? = some (before ++ [bracketPiece v.length i '⎛' '⎜' '⎝'] ++ body ++ [bracketPiece v.length i '⎞' '⎟' '⎠']) ∧
        words body = [(AST.scalar x).asString cfg] ∧
        (Middle v.length i → before = Value.symbolOf name ++ str! " = ") ∧
        (¬ Middle v.length i → ∀ c ∈ before, c = ' ') := by
  obtain ⟨W, h1, h2⟩ := pretty_vector (ε := ε) cfg v hne (some (Value.symbolOf name))
  have hc : ∀ r ∈ (v.map fun x => [roundAndFormat cfg x false]), ∀ s ∈ r, ∀ c ∈ s, NumChar c := by
    intro r hr s hs
    obtain ⟨x, hx, rfl⟩ := List.mem_map.1 hr
    rw [List.mem_singleton.1 hs]
    exact plain_numChars cfg x
  have hl := grid_lines (name := some (Value.symbolOf name)) frame_round (by simpa using symbol_newline hn) (by simpa using hne) hc W
  refine ⟨_, h1, ?_, ?_⟩
  · rw [hl, gridLines_length, List.length_map]
  · intro i x hx
    obtain ⟨before, body, g1, g2, g3, g4, -⟩ := grid_line (name := some (Value.symbolOf name)) (t := ('⎛', '⎞')) (m := ('⎜', '⎟')) (b := ('⎝', '⎠'))
      (rows := v.map fun x => [roundAndFormat cfg x false]) (W := W) (i := i) (r := [roundAndFormat cfg x false]) (by simp [hx]) (by
        intro s hs
        rw [List.mem_singleton.1 hs]
        exact ⟨plain_ne cfg x, fun h => (numChar_ascii (plain_numChars cfg x _ h)).2.2 rfl⟩)
    rw [hl]
    simp only [List.length_map] at g1 g3 g4
    exact ⟨before, body, g1, g2, fun h => g3 _ rfl h, fun h => g4 fun h' => h h'.2⟩

/-- **C57** (contents, matrices): line `i` shows row `i`, in order, between the pieces of a square bracket. -/
theorem C57_matrix_lines (cfg : Cfg) (m : List (List F)) (hne : m ≠ []) (k : Nat) (hk : 0 < k) (hlen : ∀ r ∈ m, r.length = k)
    (name : Str) (hn : '\n' ∉ name) :
    ∃ s, ((Value.matrix m).asUnicodeAtVar cfg name : Out ε Str) = .ok s ∧ (lines s).length = m.length ∧
      ∀ (i : Nat) (r : List F), m[i]? = some r → ∃ before body,
        (lines s)[i]? = some (before ++ [bracketPiece m.length i '⎡' '⎢' '⎣'] ++ body ++ [bracketPiece m.length i '⎤' '⎥' '⎦']) ∧
        words body = r.map (fun x => (AST.scalar x).asString cfg) ∧
        (Middle m.length i → before = Value.symbolOf name ++ str! " = ") ∧
        (¬ Middle m.length i → ∀ c ∈ before, c = ' ') := by
  obtain ⟨W, h1, h2⟩ := pretty_matrix (ε := ε) cfg m hne hk hlen (some (Value.symbolOf name))
  have hc : ∀ r ∈ (m.map fun r => r.map fun x => roundAndFormat cfg x false), ∀ s ∈ r, ∀ c ∈ s, NumChar c := by
    intro r hr s hs
    obtain ⟨r', hr', rfl⟩ := List.mem_map.1 hr
    obtain ⟨x, hx, rfl⟩ := List.mem_map.1 hs
    exact plain_numChars cfg x
  have hl := grid_lines (name := some (Value.symbolOf name)) frame_square (by simpa using symbol_newline hn) (by simpa using hne) hc W
  refine ⟨_, h1, ?_, ?_⟩
  · rw [hl, gridLines_length, List.length_map]
  · intro i r hr
    obtain ⟨before, body, g1, g2, g3, g4, -⟩ := grid_line (name := some (Value.symbolOf name)) (t := ('⎡', '⎤')) (m := ('⎢', '⎥')) (b := ('⎣', '⎦'))
      (rows := m.map fun r => r.map fun x => roundAndFormat cfg x false) (W := W) (i := i) (r := r.map fun x => roundAndFormat cfg x false)
      (by simp [hr]) (by
        intro s hs
        obtain ⟨x, hx, rfl⟩ := List.mem_map.1 hs
        exact ⟨plain_ne cfg x, fun h => (numChar_ascii (plain_numChars cfg x _ h)).2.2 rfl⟩)
    rw [hl]
    simp only [List.length_map] at g1 g3 g4
    exact ⟨before, body, g1, g2, fun h => g3 _ rfl h, fun h => g4 fun h' => h h'.2⟩

/-- **C57** (contents without a name): the same without anything before the brackets. -/
theorem C57_matrix_content (cfg : Cfg) (m : List (List F)) (hne : m ≠ []) (k : Nat) (hk : 0 < k) (hlen : ∀ r ∈ m, r.length = k) :
    ∃ s, ((Value.matrix m).asUnicode cfg : Out ε Str) = .ok s ∧ (lines s).length = m.length ∧
      ∀ (i : Nat) (r : List F), m[i]? = some r → ∃ body,
        (lines s)[i]? = some ([bracketPiece m.length i '⎡' '⎢' '⎣'] ++ body ++ [bracketPiece m.length i '⎤' '⎥' '⎦']) ∧
        words body = r.map fun x => (AST.scalar x).asString cfg := by
  obtain ⟨W, h1, h2⟩ := pretty_matrix (ε := ε) cfg m hne hk hlen none
  have hc : ∀ r ∈ (m.map fun r => r.map fun x => roundAndFormat cfg x false), ∀ s ∈ r, ∀ c ∈ s, NumChar c := by
    intro r hr s hs
    obtain ⟨r', hr', rfl⟩ := List.mem_map.1 hr
    obtain ⟨x, hx, rfl⟩ := List.mem_map.1 hs
    exact plain_numChars cfg x
  have hl := grid_lines (name := none) frame_square (by simp) (by simpa using hne) hc W
  refine ⟨_, h1, ?_, ?_⟩
  · rw [hl, gridLines_length, List.length_map]
  · intro i r hr
    obtain ⟨before, body, g1, g2, -, -, g5⟩ := grid_line (name := none) (t := ('⎡', '⎤')) (m := ('⎢', '⎥')) (b := ('⎣', '⎦'))
      (rows := m.map fun r => r.map fun x => roundAndFormat cfg x false) (W := W) (i := i) (r := r.map fun x => roundAndFormat cfg x false)
      (by simp [hr]) (by
        intro s hs
        obtain ⟨x, hx, rfl⟩ := List.mem_map.1 hs
        exact ⟨plain_ne cfg x, fun h => (numChar_ascii (plain_numChars cfg x _ h)).2.2 rfl⟩)
    rw [hl]
    rw [g5 rfl] at g1
    simp only [List.length_map] at g1
    exact ⟨body, g1, g2⟩

/-- **C57** (contents without a name, vectors) -/
theorem C57_vector_content (cfg : Cfg) (v : List F) (hne : v ≠ []) :
    ∃ s, ((Value.vector v).asUnicode cfg : Out ε Str) = .ok s ∧ (lines s).length = v.length ∧
      ∀ (i : Nat) (x : F), v[i]? = some x → ∃ body,
        (lines s)[i]? = some ([bracketPiece v.length i '⎛' '⎜' '⎝'] ++ body ++ [bracketPiece v.length i '⎞' '⎟' '⎠']) ∧
        words body = [(AST.scalar x).asString cfg] := by
  obtain ⟨W, h1, h2⟩ := pretty_vector (ε := ε) cfg v hne none
  have hc : ∀ r ∈ (v.map fun x => [roundAndFormat cfg x false]), ∀ s ∈ r, ∀ c ∈ s, NumChar c := by
    intro r hr s hs
    obtain ⟨x, hx, rfl⟩ := List.mem_map.1 hr
    rw [List.mem_singleton.1 hs]
    exact plain_numChars cfg x
  have hl := grid_lines (name := none) frame_round (by simp) (by simpa using hne) hc W
  refine ⟨_, h1, ?_, ?_⟩
  · rw [hl, gridLines_length, List.length_map]
  · intro i x hx
    obtain ⟨before, body, g1, g2, -, -, g5⟩ := grid_line (name := none) (t := ('⎛', '⎞')) (m := ('⎜', '⎟')) (b := ('⎝', '⎠'))
      (rows := v.map fun x => [roundAndFormat cfg x false]) (W := W) (i := i) (r := [roundAndFormat cfg x false]) (by simp [hx]) (by
        intro s hs
        rw [List.mem_singleton.1 hs]
        exact ⟨plain_ne cfg x, fun h => (numChar_ascii (plain_numChars cfg x _ h)).2.2 rfl⟩)
    rw [hl]
    rw [g5 rfl] at g1
    simp only [List.length_map] at g1
    exact ⟨body, g1, g2⟩

/-- **C57** (numbers): a number is printed as its rounded text, after the name and an equals sign if there is a name. -/
theorem C57_scalar (cfg : Cfg) (a : F) (name : Str) :
    ((Value.scalar a).asUnicode cfg : Out ε Str) = .ok ((AST.scalar a).asString cfg) ∧
    ((Value.scalar a).asUnicodeAtVar cfg name : Out ε Str) = .ok (Value.symbolOf name ++ str! " = " ++ (AST.scalar a).asString cfg) :=
  ⟨rfl, rfl⟩

/-- **C57** (empty): an empty vector cannot be pretty-printed, the call panics. -/
theorem C57_empty_panics (cfg : Cfg) (name : Option Str) : ((Value.vector ([] : List F)).prettyPrint cfg name : Out ε Str) = .panic := rfl

end

example : ((Value.vector [.fin 1, .fin (-25/2), .fin 3] : Value Q).asUnicodeAtVar Cfg.default (str! "x") : Out Unit Str) =
    .ok (str! "    ⎛  1  ⎞\nx = ⎜-12.5⎟\n    ⎝  3  ⎠") := by decide +kernel
example : ((Value.vector [.fin 1, .fin 2] : Value Q).asUnicodeAtVar Cfg.default (str! "pi") : Out Unit Str) =
    .ok (str! "𝜋 = ⎛1⎞\n       ⎝2⎠") := by decide +kernel
example : ((Value.matrix [[.fin 1, .fin 20], [.fin 3, .fin 4]] : Value Q).asUnicode Cfg.default : Out Unit Str) =
    .ok (str! "⎡1  20⎤\n⎣3  4 ⎦") := by decide +kernel

end MUL
