import Verif.Model.Basetypes
/-!
# Helpers  (src/helpers.rs) and the `f64` text format accepted by `str::parse`
-/

namespace MUL

/-- `center_in_string`  (src/helpers.rs 4-32). The width `n` is an `i32` in the code and is always
the cast of a length; the length of the string is its *byte* length. For an odd padding
`floor(padding/2)` (= `padding / 2`) and `ceil(padding/2)` are used; for an even one `padding/2`
twice. -/
def centerInString (f : Str) (n : Int) : Str :=
  if (byteLen f : Int) > n then f
  else
    let padding : Nat := (n - byteLen f).toNat
    let lPadding : Nat := padding / 2
    let rPadding : Nat := if padding % 2 = 0 then padding / 2 else padding / 2 + 1
    List.replicate lPadding ' ' ++ f ++ List.replicate rPadding ' '

/-- `cart_prod`  (src/helpers.rs 63-78): start with one empty tuple, for each list extend every
tuple by every element. -/
def cartProd {α : Type} (arr : List (List α)) : List (List α) :=
  arr.foldl (fun results xs => results.flatMap fun res => xs.map fun el => res ++ [el]) [[]]

/-- The loop of `get_args`  (src/helpers.rs 85-97), state: depth, buffer (in order), pieces. -/
def getArgsLoop : List Char → Int → Str → List Str → List Str
  | [], _, buffer, args => args ++ [buffer]
  | j :: rest, depth, buffer, args =>
    let cut := depth == 0 && j == ','
    let args' := if cut then args ++ [buffer] else args
    let buffer' := if cut then [] else buffer ++ [j]
    let depth' :=
      if j == '(' || j == '[' || j == '{' then depth + 1
      else if j == ')' || j == ']' || j == '}' then depth - 1
      else depth
    getArgsLoop rest depth' buffer' args'

/-- `get_args`  (src/helpers.rs 81-100). -/
def getArgs (chars : Str) : List Str := getArgsLoop chars 0 [] []

/-! ### `str::parse::<f64>`

The grammar documented for `impl FromStr for f64`:
`[+-]? ( 'inf' | 'infinity' | 'nan' | Digit+ | Digit+ '.' Digit* | Digit* '.' Digit+ ) Exp?`
(case-insensitive words, exponent only after a number). Not part of the repository; called at
src/parser.rs 54. -/

/-- value of a digit string -/
def digitsVal (ds : Str) : Nat := ds.foldl (fun n c => 10 * n + (c.toNat - '0'.toNat)) 0

/-- optional exponent part `e[+-]?digits`; the whole string must be consumed -/
def parseExp : Str → Option Int
  | [] => some 0
  | c :: r =>
    if c == 'e' || c == 'E' then
      match r with
      | [] => none
      | d :: r' =>
        let neg := d == '-'
        let ds := if d == '-' || d == '+' then r' else r
        if ds.isEmpty || !ds.all Char.isDigit then none
        else some (if neg then -(digitsVal ds : Int) else (digitsVal ds : Int))
    else none

/-- mantissa and decimal exponent of an unsigned number -/
def parseNumber (s : Str) : Option (Nat × Int) :=
  let ip := s.takeWhile Char.isDigit
  let r := s.dropWhile Char.isDigit
  let fp := match r with
    | '.' :: r' => r'.takeWhile Char.isDigit
    | _ => []
  let r2 := match r with
    | '.' :: r' => r'.dropWhile Char.isDigit
    | _ => r
  if (ip ++ fp).isEmpty then none
  else match parseExp r2 with
    | some e => some (digitsVal (ip ++ fp), e - fp.length)
    | none => none

/-- `str::parse::<f64>()` (called at src/parser.rs 54). -/
def parseF64 {F : Type} [FArith F] (s : Str) : Option F :=
  match s with
  | [] => none
  | c :: rest =>
    let neg := c == '-'
    let body := if c == '-' || c == '+' then rest else s
    match parseNumber body with
    | some (m, e) => some (if neg then FArith.neg (FArith.ofDec m e) else FArith.ofDec m e)
    | none =>
      let low := body.map Char.toLower
      if low == ['n', 'a', 'n'] then some FArith.nan
      else if low == ['i', 'n', 'f'] || low == ['i', 'n', 'f', 'i', 'n', 'i', 't', 'y'] then
        some (FArith.inf neg)
      else none

end MUL
