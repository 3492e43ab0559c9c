import Verif.Model.Print
import Verif.Num.RatText
import Verif.Props.Grammar
import Verif.Props.Eval
/-!
# C51: printed values can be read back
-/

set_option linter.unusedSectionVars false
set_option linter.unusedSimpArgs false

namespace MUL
open Spec Out FArith

section
variable [UTable] {F : Type} [FNum F] [TextLaws F]

theorem numeral_text (ip fp : Str) : (Ex.num ip (if fp = [] then none else some fp)).text = numeral ip fp := by
  unfold numeral
  split <;> simp [Ex.text, *]

theorem numeral_wf {ip fp : Str} (h : ip ≠ []) (h1 : AllDigits ip) (h2 : AllDigits fp) :
    (Ex.num ip (if fp = [] then none else some fp)).WF := by
  refine ⟨h1, ?_, Or.inl h⟩
  intro f hf
  split at hf
  · cases hf
  · cases hf; exact h2

theorem numeral_tree (cfg : Cfg) (ip fp : Str) : (Ex.num ip (if fp = [] then none else some fp)).tree cfg =
    (.scalar (ofDec (digitsVal (ip ++ fp)) (-(fp.length : Int))) : AST F) := by
  split <;> simp [Ex.tree, *]

/-- The text of a finite number is an expression which evaluates to the number. -/
theorem decimal_ex (cfg : Cfg) (a : F) (h : Decimal a) : ∃ e : Ex, e.WF ∧ e.isBracket = false ∧ e.text = FText.display a ∧
    ∀ (ctx : Context F) w, Finishes (fun n => evalRec cfg n (e.tree cfg) ctx w) (.ok [.scalar a]) := by
  obtain ⟨m, e, hfin, ha⟩ := h
  obtain ⟨ip, fp, h1, h2, h3, h4, h5⟩ := TextLaws.display_decimal (F := F) m e hfin
  rcases ha with rfl | rfl
  · refine ⟨_, numeral_wf h1 h2 h3, rfl, ?_, fun ctx w => ?_⟩
    · rw [numeral_text, h4]
    · rw [numeral_tree, h5]
      exact ⟨by simp, 1, rfl⟩
  · refine ⟨.neg (.num ip (if fp = [] then none else some fp)), ⟨numeral_wf h1 h2 h3, (show 4 < 10 by decide)⟩, rfl, ?_, fun ctx w => ?_⟩
    · rw [Ex.text, numeral_text, TextLaws.display_neg, h4]
      rfl
    · rw [Ex.tree, numeral_tree, h5]
      have := C19_results (cfg := cfg) (op := .neg) (l := .scalar (ofInt 0)) (r := .scalar (ofDec m e)) (ctx := ctx) (w := w)
        (lv := [.scalar (ofInt 0)]) (rv := [.scalar (ofDec m e)]) ⟨by simp, 1, rfl⟩ ⟨by simp, 1, rfl⟩
        (fun _ => [.scalar (neg (ofDec m e))]) (by
          intro p hp
          simp only [pairs, List.flatMap_cons, List.map_cons, List.map_nil, List.flatMap_nil, List.append_nil,
            List.mem_singleton] at hp
          subst hp
          simp only [opTable, vNeg]
          rw [TextLaws.neg_one_mul]
          rfl)
      simpa [pairs] using this

/-- An expression for each number (a stand-in for those that are not decimal). -/
noncomputable def exOf (cfg : Cfg) (a : F) : Ex :=
  open Classical in if h : Decimal a then (decimal_ex cfg a h).choose else .num ['0'] none

theorem exOf_spec (cfg : Cfg) {a : F} (h : Decimal a) : (exOf cfg a).WF ∧ (exOf cfg a).isBracket = false ∧
    (exOf cfg a).text = FText.display a ∧
    ∀ (ctx : Context F) w, Finishes (fun n => evalRec cfg n ((exOf cfg a).tree cfg) ctx w) (.ok [.scalar a]) := by
  unfold exOf
  rw [dif_pos h]
  exact (decimal_ex cfg a h).choose_spec

theorem map_text (cfg : Cfg) {v : List F} (hv : ∀ a ∈ v, Decimal a) :
    textAll (v.map (exOf cfg)) = v.map FText.display := by
  rw [textAll_eq, List.map_map]
  exact List.map_congr_left fun a ha => (exOf_spec cfg (hv a ha)).2.2.1

theorem map_eval (cfg : Cfg) (ctx : Context F) (w : Str) {v : List F} (hv : ∀ a ∈ v, Decimal a) :
    List.Forall₂ (fun b xs => Finishes (fun n => evalRec cfg n b ctx w) (.ok (xs.map Value.scalar)))
      (v.map fun a => (exOf cfg a).tree cfg) (v.map fun x => [x]) := by
  induction v with
  | nil => exact .nil
  | cons a v ih =>
    exact .cons ((exOf_spec cfg (hv a (by simp))).2.2.2 ctx w) (ih fun x hx => hv x (by simp [hx]))

theorem quick_of_tree {cfg : Cfg} {e : Ex} {s : Str} {ctx : Context F} {vs : List (Value F)} (h : e.WF) (hs : e.text = s)
    (he : Finishes (fun n => evalRec cfg n (e.tree cfg) ctx []) (.ok vs)) :
    Finishes (fun n => quickEval cfg n s ctx) (.ok vs) := by
  have hp := C09_parse_text (F := F) cfg e h
  rw [hs] at hp
  exact ((C29_eval cfg s ctx hp).1 vs).1 he

/-- **C51** (numbers): the text of a finite number is read back as that number, in every context. -/
theorem C51_scalar (cfg : Cfg) (ctx : Context F) (a : F) (h : Decimal a) :
    Finishes (fun n => quickEval cfg n (Value.scalar a).asString ctx) (.ok [.scalar a]) := by
  obtain ⟨e, h1, -, h3, h4⟩ := decimal_ex cfg a h
  exact quick_of_tree h1 h3 (h4 ctx [])

/-- The text of a vector is an expression which evaluates to the vector. -/
theorem vector_ex (cfg : Cfg) (v : List F) (hne : v ≠ []) (h : ∀ a ∈ v, Decimal a) :
    ∃ e : Ex, e.WF ∧ e.text = (Value.vector v).asString ∧
      ∀ ctx, Finishes (fun n => evalRec cfg n (e.tree cfg) ctx []) (.ok [.vector v]) := by
  refine ⟨.vec (v.map (exOf cfg)), ?_, ?_, fun ctx => ?_⟩
  · refine ⟨by simpa using hne, (WFAll_iff _).2 ?_, ?_⟩
    · intro e he
      obtain ⟨a, ha, rfl⟩ := List.mem_map.1 he
      exact (exOf_spec cfg (h a ha)).1
    · intro e he
      obtain ⟨a, ha, rfl⟩ := List.mem_map.1 he
      exact (exOf_spec cfg (h a ha)).2.1
  · rw [Ex.text, map_text cfg h]
    rfl
  · have := C20_vector (map_eval cfg ctx [] h)
    rw [choices_singletons] at this
    simpa [Ex.tree, treeAll_eq, Function.comp_def] using this

/-- **C51** (vectors): the text of a non-empty vector of finite numbers is read back as that vector. -/
theorem C51_vector (cfg : Cfg) (ctx : Context F) (v : List F) (hne : v ≠ []) (h : ∀ a ∈ v, Decimal a) :
    Finishes (fun n => quickEval cfg n (Value.vector v).asString ctx) (.ok [.vector v]) := by
  obtain ⟨e, h1, h2, h3⟩ := vector_ex cfg v hne h
  exact quick_of_tree h1 h2 (h3 ctx)

omit [UTable] [TextLaws F] [FNum F] in
theorem transpose_map {α β : Type} (g : α → β) (n : Nat) (m : List (List α)) :
    transpose n (m.map fun r => r.map g) = (transpose n m).map fun r => r.map g := by
  unfold transpose
  rw [List.map_map]
  refine List.map_congr_left fun i _ => ?_
  simp only [Function.comp_apply, List.filterMap_map, List.map_filterMap]
  refine List.filterMap_congr fun r _ => ?_
  simp

omit [UTable] [TextLaws F] [FNum F] in
theorem mem_transpose {α : Type} {n : Nat} {m : List (List α)} {r : List α} (hr : r ∈ transpose n m) :
    ∀ x ∈ r, ∃ r' ∈ m, x ∈ r' := by
  intro x hx
  obtain ⟨i, -, rfl⟩ := List.mem_map.1 hr
  obtain ⟨r', hr', h⟩ := List.mem_filterMap.1 hx
  exact ⟨r', hr', List.mem_of_getElem? h⟩

omit [UTable] [TextLaws F] [FNum F] in
theorem filterMap_col {α : Type} {n i : Nat} (hi : i < n) (m : List (List α)) (hlen : ∀ r ∈ m, r.length = n) :
    (m.filterMap fun r => r[i]?).length = m.length ∧
      ∀ j : Nat, (m.filterMap fun r => r[i]?)[j]? = m[j]?.bind fun r => r[i]? := by
  induction m with
  | nil => simp
  | cons r m ih =>
    obtain ⟨h1, h2⟩ := ih fun r hr => hlen r (by simp [hr])
    have hl : i < r.length := by
      rw [hlen r (by simp)]
      exact hi
    have : r[i]? = some r[i] := List.getElem?_eq_getElem hl
    rw [List.filterMap_cons_some (f := fun (r : List α) => r[i]?) this]
    refine ⟨by simp [h1], fun j => ?_⟩
    cases j with
    | zero => simp [this]
    | succ j => simpa using h2 j

/-- The text of a matrix is an expression which evaluates to the matrix (`row-major`) or its transpose. -/
theorem matrix_ex (cfg : Cfg) (m : List (List F)) (k : Nat) (hne : m ≠ []) (hk : 0 < k)
    (hlen : ∀ r ∈ m, r.length = k) (h : ∀ r ∈ m, ∀ a ∈ r, Decimal a) :
    ∃ e : Ex, e.WF ∧ e.text = (Value.matrix m).asString ∧
      ∀ ctx, Finishes (fun n => evalRec cfg n (e.tree cfg) ctx []) (.ok [.matrix (if cfg.rowMajor then m else transpose k m)]) := by
  refine ⟨.mat (m.map fun r => r.map (exOf cfg)), ?_, ?_, fun ctx => ?_⟩
  · refine ⟨by simpa using hne, (WFRows_iff _).2 ?_, k, hk, ?_⟩
    · intro r hr e he
      obtain ⟨r', hr', rfl⟩ := List.mem_map.1 hr
      obtain ⟨a, ha, rfl⟩ := List.mem_map.1 he
      exact (exOf_spec cfg (h r' hr' a ha)).1
    · intro r hr
      obtain ⟨r', hr', rfl⟩ := List.mem_map.1 hr
      refine ⟨by simpa using hlen r' hr', fun e he => ?_⟩
      obtain ⟨a, ha, rfl⟩ := List.mem_map.1 he
      exact (exOf_spec cfg (h r' hr' a ha)).2.1
  · rw [Ex.text, textRows_eq, List.map_map]
    unfold Value.asString commas join
    congr 3
    refine List.map_congr_left fun r hr => ?_
    simp only [Function.comp_apply]
    rw [map_text cfg (h r hr)]
  · have key : ∀ m' : List (List F), (∀ r ∈ m', ∀ a ∈ r, Decimal a) →
        Finishes (fun n => evalRec cfg n (.matrix (m'.map fun r => r.map fun a => (exOf cfg a).tree cfg)) ctx [])
          (.ok [.matrix m']) := by
      intro m' hm'
      have := C20_matrix (rows := m'.map fun r => r.map fun a => (exOf cfg a).tree cfg)
        (fields := m'.map fun r => r.map fun x => [x]) (cfg := cfg) (ctx := ctx) (w := []) (by
          rw [List.forall₂_map_left_iff, List.forall₂_map_right_iff]
          exact List.forall₂_same.2 fun r hr => map_eval cfg ctx [] (hm' r hr))
      have e1 : ((m'.map fun r => r.map fun x => [x]).map choices) = m'.map fun r => [r] := by
        rw [List.map_map]
        exact List.map_congr_left fun r _ => choices_singletons r
      rw [e1, choices_singletons] at this
      exact this
    have e2 : (treeRows cfg (m.map fun r => r.map (exOf cfg)) : List (List (AST F))) =
        m.map fun r => r.map fun a => (exOf cfg a).tree cfg := by
      rw [treeRows_eq, List.map_map]
      refine List.map_congr_left fun r _ => ?_
      simp [treeAll_eq]
    have e3 : ((m.map fun r => r.map fun a => ((exOf cfg a).tree cfg : AST F)).headD []).length = k := by
      cases m with
      | nil => exact absurd rfl hne
      | cons r m => simpa using hlen r (by simp)
    simp only [Ex.tree, e2, e3]
    split
    · exact key m h
    · rw [transpose_map]
      refine key _ fun r hr a ha => ?_
      obtain ⟨r', hr', ha'⟩ := mem_transpose hr a ha
      exact h r' hr' a ha'

/-- The text of a matrix is read back as the matrix (`row-major`) or its transpose. -/
theorem matrix_read (cfg : Cfg) (ctx : Context F) (m : List (List F)) (k : Nat) (hne : m ≠ []) (hk : 0 < k)
    (hlen : ∀ r ∈ m, r.length = k) (h : ∀ r ∈ m, ∀ a ∈ r, Decimal a) :
    Finishes (fun n => quickEval cfg n (Value.matrix m).asString ctx)
      (.ok [.matrix (if cfg.rowMajor then m else transpose k m)]) := by
  obtain ⟨e, h1, h2, h3⟩ := matrix_ex cfg m k hne hk hlen h
  exact quick_of_tree h1 h2 (h3 ctx)

/-- **C51** (matrices, `row-major`): the text of a rectangular matrix of finite numbers is read back as that matrix. -/
theorem C51_matrix_row_major (cfg : Cfg) (hc : cfg.rowMajor = true) (ctx : Context F) (m : List (List F)) (k : Nat)
    (hne : m ≠ []) (hk : 0 < k) (hlen : ∀ r ∈ m, r.length = k) (h : ∀ r ∈ m, ∀ a ∈ r, Decimal a) :
    Finishes (fun n => quickEval cfg n (Value.matrix m).asString ctx) (.ok [.matrix m]) := by
  have := matrix_read cfg ctx m k hne hk hlen h
  rwa [if_pos hc] at this

/-- Values whose text is read back unchanged: finite numbers, non-empty vectors and, with `row-major`, rectangular
matrices of them. -/
inductive Unchanged (cfg : Cfg) : Value F → Prop
  | scalar (a : F) : Decimal a → Unchanged cfg (.scalar a)
  | vector (v : List F) : v ≠ [] → (∀ a ∈ v, Decimal a) → Unchanged cfg (.vector v)
  | matrix (m : List (List F)) (k : Nat) : cfg.rowMajor = true → m ≠ [] → 0 < k → (∀ r ∈ m, r.length = k) →
      (∀ r ∈ m, ∀ a ∈ r, Decimal a) → Unchanged cfg (.matrix m)

theorem unchanged_ex {cfg : Cfg} {v : Value F} (h : Unchanged cfg v) : ∃ e : Ex, e.WF ∧ e.text = v.asString ∧
    ∀ ctx, Finishes (fun n => evalRec cfg n (e.tree cfg) ctx []) (.ok [v]) := by
  rcases h with ⟨a, h⟩ | ⟨v, h1, h2⟩ | ⟨m, k, h1, h2, h3, h4, h5⟩
  · obtain ⟨e, h1, -, h3, h4⟩ := decimal_ex cfg a h
    exact ⟨e, h1, h3, fun ctx => h4 ctx []⟩
  · exact vector_ex cfg v h1 h2
  · have := matrix_ex cfg m k h2 h3 h4 h5
    rwa [if_pos h1] at this

theorem unblank_commas {l : List Str} :
    (join (str! ", ") l).filter (· != ' ') = (commas l).filter (· != ' ') := by
  unfold join commas
  induction l with
  | nil => rfl
  | cons a l ih =>
    cases l with
    | nil => rfl
    | cons b l =>
      rw [List.intercalate_cons_cons, List.intercalate_cons_cons]
      simp only [List.filter_append, ih]
      rfl

/-- **C51** (results): the text of a non-empty result (one or several values) is read back as that result, with all
its values in order. -/
theorem C51_values (cfg : Cfg) (ctx : Context F) (vs : List (Value F)) (hne : vs ≠ []) (h : ∀ v ∈ vs, Unchanged cfg v) :
    Finishes (fun n => quickEval cfg n (valuesAsString vs) ctx) (.ok vs) := by
  have key : ∀ vs : List (Value F), (∀ v ∈ vs, Unchanged cfg v) → ∃ es : List Ex, (∀ e ∈ es, e.WF) ∧
      textAll es = vs.map Value.asString ∧
      List.Forall₂ (fun b ws => Finishes (fun n => evalRec cfg n b ctx []) (.ok ws)) (treeAll cfg es) (vs.map fun v => [v]) := by
    intro vs h
    induction vs with
    | nil => exact ⟨[], nofun, rfl, .nil⟩
    | cons v vs ih =>
      obtain ⟨es, h1, h2, h3⟩ := ih fun w hw => h w (by simp [hw])
      obtain ⟨e, g1, g2, g3⟩ := unchanged_ex (h v (by simp))
      refine ⟨e :: es, ?_, ?_, .cons (g3 ctx) h3⟩
      · intro x hx
        rcases List.mem_cons.1 hx with rfl | hx
        · exact g1
        · exact h1 x hx
      · simp only [textAll, List.map_cons, g2, h2]
  obtain ⟨es, h1, h2, h3⟩ := key vs h
  have hes : es ≠ [] := by
    rintro rfl
    cases vs with
    | nil => exact hne rfl
    | cons v vs => simp [textAll] at h2
  have hp := C09_parse_text_blanks (F := F) cfg (.list es) ⟨hes, (WFAll_iff _).2 h1⟩ (valuesAsString vs) (by
    simp only [valuesAsString, Ex.text, List.filter_append, unblank_commas, h2])
  refine ((C29_eval cfg _ ctx hp).1 vs).1 ?_
  have hfl : ∀ l : List (Value F), (l.map fun v => [v]).flatten = l := by
    intro l
    induction l with
    | nil => rfl
    | cons v l ih => rw [List.map_cons, List.flatten_cons, ih]; rfl
  have := C20_list h3
  rwa [hfl] at this

/-- **C51** (matrices, column-major as in the default build): the text of a rectangular matrix of finite numbers is
read back as the transposed matrix. -/
theorem C51_matrix_column_major (cfg : Cfg) (hc : cfg.rowMajor = false) (ctx : Context F) (m : List (List F)) (k : Nat)
    (hne : m ≠ []) (hk : 0 < k) (hlen : ∀ r ∈ m, r.length = k) (h : ∀ r ∈ m, ∀ a ∈ r, Decimal a) :
    ∃ m' : List (List F), Finishes (fun n => quickEval cfg n (Value.matrix m).asString ctx) (.ok [.matrix m']) ∧
      m'.length = k ∧ (∀ r ∈ m', r.length = m.length) ∧
      ∀ i j : Nat, (m'[i]?.bind fun r => r[j]?) = m[j]?.bind fun r => r[i]? := by
  have := matrix_read cfg ctx m k hne hk hlen h
  rw [hc] at this
  refine ⟨_, this, by simp [transpose], ?_, ?_⟩
  · intro r hr
    simp only [Bool.false_eq_true, if_false] at hr
    obtain ⟨i, hi, rfl⟩ := List.mem_map.1 hr
    exact (filterMap_col (List.mem_range.1 hi) m hlen).1
  · intro i j
    simp only [Bool.false_eq_true, if_false, transpose, List.getElem?_map]
    by_cases hi : i < k
    · rw [List.getElem?_eq_getElem (by simpa using hi), List.getElem_range, Option.map_some, Option.bind_some]
      exact (filterMap_col hi m hlen).2 j
    · rw [List.getElem?_eq_none (by simpa using hi)]
      cases hj : m[j]? with
      | none => rfl
      | some r =>
        have := hlen r (List.mem_of_getElem? hj)
        simp only [Option.map_none, Option.bind_none, Option.bind_some]
        rw [List.getElem?_eq_none]
        omega

/-- **C51** (default build): hence the round trip gives the matrix itself back exactly if it is symmetric. -/
theorem C51_symmetric (cfg : Cfg) (hc : cfg.rowMajor = false) (ctx : Context F) (m : List (List F)) (k : Nat)
    (hne : m ≠ []) (hk : 0 < k) (hlen : ∀ r ∈ m, r.length = k) (h : ∀ r ∈ m, ∀ a ∈ r, Decimal a) :
    Finishes (fun n => quickEval cfg n (Value.matrix m).asString ctx) (.ok [.matrix m]) ↔
      ∀ i j : Nat, (m[i]?.bind fun r => r[j]?) = m[j]?.bind fun r => r[i]? := by
  obtain ⟨m', h1, h2, h3, h4⟩ := C51_matrix_column_major cfg hc ctx m k hne hk hlen h
  have hp : ∃ b : AST F, parse cfg (Value.matrix m).asString = .ok b := by
    obtain ⟨-, n, hn⟩ := h1
    cases hb : (parse cfg (Value.matrix m).asString : Out ParserError (AST F)) with
    | ok b => exact ⟨b, rfl⟩
    | _ => unfold quickEval at hn; rw [hb] at hn; exact absurd hn (by simp [Out.mapErr, bind, Out.bind])
  obtain ⟨b, hb⟩ := hp
  constructor
  · intro hf
    have e1 := ((C29_eval cfg _ ctx hb).1 _).2 hf
    have e2 := ((C29_eval cfg _ ctx hb).1 _).2 h1
    have := C18_one_outcome cfg b ctx e1 e2
    simp only [Out.ok.injEq, List.cons.injEq, Value.matrix.injEq, and_true] at this
    subst this
    exact h4
  · intro hs
    have : m' = m := by
      have hl : m'.length = m.length := by
        obtain ⟨r, hr⟩ := List.exists_mem_of_ne_nil m hne
        -- a row of `m` has `k` entries; symmetry gives `m` that many rows
        rw [h2]
        by_contra hcon
        rcases Nat.lt_or_gt_of_ne hcon with hlt | hgt
        · have := hs k 0
          have hk0 : ∃ r0, m[k]? = some r0 := ⟨_, List.getElem?_eq_getElem hlt⟩
          obtain ⟨r0, hr0⟩ := hk0
          rw [hr0] at this
          simp only [Option.bind_some] at this
          rw [List.getElem?_eq_getElem (by rw [hlen r0 (List.mem_of_getElem? hr0)]; exact hk)] at this
          obtain ⟨r1, hr1⟩ : ∃ r1, m[0]? = some r1 := ⟨_, List.getElem?_eq_getElem (by omega)⟩
          rw [hr1] at this
          simp only [Option.bind_some] at this
          rw [List.getElem?_eq_none (by rw [hlen r1 (List.mem_of_getElem? hr1)])] at this
          cases this
        · have := hs 0 m.length
          have h0 : 0 < m.length := List.length_pos_iff.2 hne
          obtain ⟨r1, hr1⟩ : ∃ r1, m[0]? = some r1 := ⟨_, List.getElem?_eq_getElem h0⟩
          rw [hr1, List.getElem?_eq_none (Nat.le_refl m.length)] at this
          simp only [Option.bind_some, Option.bind_none] at this
          rw [List.getElem?_eq_getElem (by rw [hlen r1 (List.mem_of_getElem? hr1)]; exact hgt)] at this
          cases this
      refine List.ext_getElem hl fun i hi hi' => ?_
      refine List.ext_getElem? fun j => ?_
      have := (h4 i j).trans (hs i j).symm
      rw [List.getElem?_eq_getElem hi, List.getElem?_eq_getElem hi'] at this
      exact this
    rw [this] at h1
    exact h1

end

section Examples
local instance : UTable := UTable.ascii

/-- A vector with negative and fractional entries meets the hypotheses. -/
example : ∀ a ∈ ([Ext.fin (-5/4), Ext.fin 300, Ext.negZero] : List Q), Decimal a := by
  intro a ha
  simp only [List.mem_cons, List.not_mem_nil, or_false] at ha
  rcases ha with rfl | rfl | rfl
  · exact ⟨125, -2, rfl, Or.inr (by rw [neg_ofDec]; norm_num)⟩
  · exact ⟨3, 2, rfl, Or.inl (by show Ext.fin _ = Ext.fin _; norm_num)⟩
  · exact ⟨0, 0, rfl, Or.inr (by rw [neg_ofDec]; norm_num)⟩

example : (Value.vector [Ext.fin (-5/4), Ext.fin 300] : Value Q).asString = str! "[-1.25,300]" := by decide +kernel

/-- The result `{-1.25, [300, 0]}` meets the hypotheses of `C51_values`. -/
example : ∀ v ∈ [Value.scalar (.fin (-5/4)), Value.vector [.fin 300, .fin 0]], Unchanged (F := Q) Cfg.default v := by
  have h1 : Decimal (Ext.fin (-5/4) : Q) := ⟨125, -2, rfl, Or.inr (by decide +kernel)⟩
  have h2 : Decimal (Ext.fin 300 : Q) := ⟨3, 2, rfl, Or.inl (by decide +kernel)⟩
  have h3 : Decimal (Ext.fin 0 : Q) := ⟨0, 0, rfl, Or.inl (by decide +kernel)⟩
  simp only [List.forall_mem_cons]
  exact ⟨.scalar _ h1, .vector _ (by simp) (by simpa using ⟨h2, h3⟩), nofun⟩

example : valuesAsString ([.scalar (.fin (-5/4)), .vector [.fin 300, .fin 0]] : List (Value Q)) = str! "{-1.25, [300,0]}" := by
  decide +kernel

/-- **C51** (refuted for empty results): the text of an empty result, `{}`, is rejected. -/
theorem C51_no_values_false (cfg : Cfg) (n : Nat) (ctx : Context Q) :
    quickEval cfg n (valuesAsString ([] : List (Value Q))) ctx = .err (.parserError .emptyExpr) := by
  have : (match (parse cfg (str! "{}") : Out ParserError (AST Q)) with | .err .emptyExpr => true | _ => false) = true := by
    obtain ⟨p, r⟩ := cfg
    rfl
  have h : (parse cfg (str! "{}") : Out ParserError (AST Q)) = .err .emptyExpr := by
    revert this
    generalize (parse cfg (str! "{}") : Out ParserError (AST Q)) = o
    intro h
    split at h
    · rfl
    · cases h
  show quickEval cfg n (str! "{}") ctx = _
  unfold quickEval
  rw [h]
  rfl

/-- **C51** (refuted in the default build): the text of the matrix with rows (1,2) and (3,4) does not give it back. -/
theorem C51_matrix_false (ctx : Context Q) :
    ¬ Finishes (fun n => quickEval Cfg.default n (Value.matrix [[.fin 1, .fin 2], [.fin 3, .fin 4]] : Value Q).asString ctx)
      (.ok [.matrix [[.fin 1, .fin 2], [.fin 3, .fin 4]]]) := by
  rw [C51_symmetric Cfg.default rfl ctx _ 2 (by simp) (by simp) (by simp)]
  · intro h
    have := h 0 1
    simp at this
  · have hd : ∀ n : Nat, Decimal (Ext.fin (n : ℚ) : Q) := fun n =>
      ⟨n, 0, rfl, Or.inl (by show Ext.fin _ = Ext.fin _; norm_num)⟩
    have h1 := hd 1
    have h2 := hd 2
    have h3 := hd 3
    have h4 := hd 4
    norm_num at h1 h2 h3 h4
    simp [h1, h2, h3, h4]

end Examples

end MUL
