/-!
# Outcomes

Rust's `Result<α, ε>` plus the two outcomes a Rust call can have without returning:
a panic (index out of range, `unwrap` of `None`, integer underflow) and not having
finished within the step budget given to the model (`timeout`).
-/

namespace MUL

/-- Outcome of a modelled Rust call. `ok`/`err` are `Result::Ok`/`Result::Err`, `panic` is an
unwinding panic, `timeout` says that the step budget of the model was exhausted (the real call
has not returned yet). -/
inductive Out (ε α : Type) where
  | ok (a : α)
  | err (e : ε)
  | panic
  | timeout
  deriving DecidableEq, Repr

namespace Out

variable {ε α β : Type}

/-- The `?` operator: go on with the value, hand everything else through. -/
protected def bind : Out ε α → (α → Out ε β) → Out ε β
  | ok a, f => f a
  | err e, _ => err e
  | panic, _ => panic
  | timeout, _ => timeout

instance : Monad (Out ε) where
  pure := ok
  bind := Out.bind

@[simp] theorem pure_eq (a : α) : (pure a : Out ε α) = ok a := rfl
@[simp] theorem ok_bind (a : α) (f : α → Out ε β) : (ok a >>= f) = f a := rfl
@[simp] theorem err_bind (e : ε) (f : α → Out ε β) : ((err e : Out ε α) >>= f) = err e := rfl
@[simp] theorem panic_bind (f : α → Out ε β) : ((panic : Out ε α) >>= f) = panic := rfl
@[simp] theorem timeout_bind (f : α → Out ε β) : ((timeout : Out ε α) >>= f) = timeout := rfl
@[simp] theorem map_eq (f : α → β) (x : Out ε α) : (f <$> x) = x >>= fun a => ok (f a) := by
  cases x <;> rfl

instance : LawfulMonad (Out ε) := LawfulMonad.mk'
  (id_map := by intro α x; cases x <;> rfl)
  (pure_bind := by intros; rfl)
  (bind_assoc := by intro _ _ _ x _ _; cases x <;> rfl)

/-- `From<ε> for ε'` as applied by the `?` operator. -/
def mapErr {ε' : Type} (f : ε → ε') : Out ε α → Out ε' α
  | ok a => ok a
  | err e => err (f e)
  | panic => panic
  | timeout => timeout

/-- `Option::unwrap`: panics on `None`. -/
def unwrap : Option α → Out ε α
  | some a => ok a
  | none => panic

end Out

/-- Slice/`Vec` indexing `l[i]`: panics when out of range. -/
def idx {ε α : Type} (l : List α) (i : Nat) : Out ε α := Out.unwrap l[i]?

/-- Range slicing `l[a..b]`: panics unless `a ≤ b ≤ l.len()`. -/
def slice {ε α : Type} (l : List α) (a b : Nat) : Out ε (List α) :=
  if a ≤ b ∧ b ≤ l.length then .ok ((l.take b).drop a) else .panic

/-- Strings are modelled as lists of Unicode scalar values (Rust `char` = Lean `Char`). -/
abbrev Str := List Char

/-- Length in bytes of the UTF-8 encoding: Rust `str::len`. -/
def byteLen (s : Str) : Nat := (s.map Char.utf8Size).sum

end MUL
