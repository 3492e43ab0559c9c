import Verif.Model.Out
/-!
# Specifications for C03 (combinations), C04 (argument splitting), C49 (choices of equations)
-/

namespace MUL.Spec

/-- Strict lexicographic order on lists of numbers: the first difference decides. -/
inductive LexLt : List Nat → List Nat → Prop
  | head {a b : Nat} {as bs : List Nat} : a < b → LexLt (a :: as) (b :: bs)
  | tail {a : Nat} {as bs : List Nat} : LexLt as bs → LexLt (a :: as) (a :: bs)

/-- `Picks arr pos t`: the tuple `t` picks from each list of `arr` the element at the position given by
`pos` (same length, every position in range). -/
inductive Picks {α : Type} : List (List α) → List Nat → List α → Prop
  | nil : Picks [] [] []
  | cons {xs : List α} {arr : List (List α)} {p : Nat} {pos : List Nat} {x : α} {t : List α} :
      xs[p]? = some x → Picks arr pos t → Picks (xs :: arr) (p :: pos) (x :: t)

/-- Nesting depth after a piece of text: opening minus closing delimiters of all three kinds. -/
def depth (s : Str) : Int :=
  (s.countP fun c => c == '(' || c == '[' || c == '{' : Nat) -
    (s.countP fun c => c == ')' || c == ']' || c == '}' : Nat)

/-- Position `i` of `s` is a comma outside every group. -/
def TopComma (s : Str) (i : Nat) : Prop := s[i]? = some ',' ∧ depth (s.take i) = 0

/-- Position at which the `k`-th separator stands when the pieces are joined with one-character
separators. -/
def sepPos (pieces : List Str) (k : Nat) : Nat := ((pieces.take (k + 1)).map List.length).sum + k

/-- All ways to choose one element of each list, the first choice varying slowest. -/
def choices {α : Type} : List (List α) → List (List α)
  | [] => [[]]
  | xs :: rest => xs.flatMap fun x => (choices rest).map (x :: ·)

end MUL.Spec
