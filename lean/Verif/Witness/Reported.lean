import Verif.Props.Reported
import Verif.Num.Rat
/-!
# Witnesses for C105
-/

namespace MUL
open Out FArith FElem Spec

/-- `f(u) = u + y` -/
def wrBody : AST Q := .simple .add (.variable ['u']) (.variable ['y'])
/-- `g(u) = g(u) + u` -/
def wrSelf : AST Q := .simple .add (.function ['g'] [.variable ['u']]) (.variable ['u'])

def wrCtx : Context Q := ⟨[⟨['x'], [.scalar (.fin 3)]⟩], [⟨['f'], wrBody, [['u']]⟩, ⟨['g'], wrSelf, [['u']]⟩]⟩

/-- `f(x)` reports `y`, which is used in the body of `f` only. -/
theorem wr_missing : eval Cfg.default 5 (.function ['f'] [.variable ['x']]) wrCtx = .err (.noVariable ['y']) := by decide +kernel

example := C105_justified Cfg.default 5 _ wrCtx _ wr_missing

/-- The same inside of an integral. -/
theorem wr_integral : eval Cfg.default 5 (.integral (.function ['f'] [.variable ['t']]) ['t'] (.scalar (.fin 0)) (.scalar (.fin 1))) wrCtx =
    .err (.noVariable ['y']) := by decide +kernel

example := C105_justified Cfg.default 5 _ wrCtx _ wr_integral

theorem wr_args : eval Cfg.default 5 (.function ['f'] [.variable ['x'], .variable ['x']]) wrCtx = .err (.wrongNumberOfArgs 1 2) := by decide +kernel

example := C105_justified Cfg.default 5 _ wrCtx _ wr_args

theorem wr_self : eval Cfg.default 5 (.function ['g'] [.variable ['x']]) wrCtx = .err .recursiveFunction := by decide +kernel

example := C105_justified Cfg.default 5 _ wrCtx _ wr_self

theorem wr_solve : solve Cfg.default 5 [(.variable ['z'], .scalar (.fin 2))] wrCtx [['z'], ['w']] = .err .underdeterminedSystem := by decide +kernel

example := C105_solve Cfg.default 5 _ _ wrCtx _ wr_solve

section
@[instance_reducible] local instance wrTable : UTable := UTable.ascii

theorem wr_funs : ∀ f ∈ wrCtx.funs, ∃ body, parse Cfg.default body = .ok f.ast := by
  intro f hf
  rcases List.mem_cons.1 hf with rfl | hf
  · exact ⟨"u+y".toList, rfl⟩
  · rcases List.mem_cons.1 hf with rfl | hf
    · exact ⟨"g(u)+u".toList, rfl⟩
    · cases hf

theorem wr_text : quickEval Cfg.default 5 "1+g(x)".toList wrCtx = .err (.evalError .recursiveFunction) := by decide +kernel

example := C105_text Cfg.default 5 "1+g(x)".toList wrCtx wr_funs _ wr_text

example := (C105_never (F := Q) Cfg.default 5 wrCtx).1 _ _ wr_self

end

/-- In this context the variables of `f(x)` are complete. -/
def wrFull : Context Q := ⟨[⟨['x'], [.scalar (.fin 3)]⟩, ⟨['y'], [.scalar (.fin 3)]⟩, ⟨['u'], [.scalar (.fin 3)]⟩], [⟨['f'], wrBody, [['u']]⟩]⟩

theorem wr_part {s t : AST Q} (h : PartOf s t) (ht : t = .function ['f'] [.variable ['x']] ∨ t = wrBody ∨ t = .variable ['x'] ∨ t = .variable ['u'] ∨ t = .variable ['y']) :
    s = .function ['f'] [.variable ['x']] ∨ s = wrBody ∨ s = .variable ['x'] ∨ s = .variable ['u'] ∨ s = .variable ['y'] := by
  induction h with
  | whole => exact ht
  | child c t hc _ ih =>
    apply ih
    rcases ht with rfl | rfl | rfl | rfl | rfl <;> simp only [children, wrBody, List.mem_cons, List.not_mem_nil, or_false] at hc
    · simp [hc]
    · rcases hc with rfl | rfl <;> simp

theorem wr_somewhere {s : AST Q} (h : Somewhere (.function ['f'] [.variable ['x']]) wrFull s) :
    s = .function ['f'] [.variable ['x']] ∨ s = wrBody ∨ s = .variable ['x'] ∨ s = .variable ['u'] ∨ s = .variable ['y'] := by
  rcases h with h | ⟨f, hf, h⟩
  · exact wr_part h (Or.inl rfl)
  · rcases List.mem_cons.1 hf with rfl | hf
    · exact wr_part h (Or.inr (Or.inl rfl))
    · cases hf

example (n : Nat) := C105_variables Cfg.default n (.function ['f'] [.variable ['x']]) wrFull (by
  intro v hv
  have := wr_somewhere hv
  simp only [wrBody, reduceCtorEq, AST.variable.injEq, false_or] at this
  rcases this with rfl | rfl | rfl
  · exact ⟨⟨['x'], [.scalar (.fin 3)]⟩, by simp [wrFull], rfl⟩
  · exact ⟨⟨['u'], [.scalar (.fin 3)]⟩, by simp [wrFull], rfl⟩
  · exact ⟨⟨['y'], [.scalar (.fin 3)]⟩, by simp [wrFull], rfl⟩)

/-- Here `x` is a vector, so that `f(x)` fails. -/
theorem wr_kinds : ∃ m, eval Cfg.default 5 (.function ['f'] [.variable ['x']]) ⟨[⟨['x'], [.vector [.fin 3]]⟩, ⟨['y'], [.scalar (.fin 3)]⟩], wrFull.funs⟩ =
    .err (.mathError m) := ⟨"Can't add scalar to vector!", by decide +kernel⟩

example : True := by
  obtain ⟨m, hm⟩ := wr_kinds
  have := C105_no_equations Cfg.default 5 _ _ (fun eqs names h => by
    have := wr_somewhere (s := .equation eqs names) h
    simp [wrBody] at this) _ hm
  trivial

end MUL
