/-!
# Character list literals

`str! "abc"` is `['a', 'b', 'c']`.
-/

open Lean in
/-- A string literal as a list of characters. -/
macro:max "str!" s:str : term => do
  let cs := s.getString.toList.toArray.map fun c => Syntax.mkCharLit c
  `([$cs,*])
