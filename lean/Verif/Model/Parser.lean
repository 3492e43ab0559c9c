import Verif.Model.Helpers
/-!
# The parser  (src/parser.rs 3-388)

`parse_inner`/`parse_value` call each other recursively on shorter strings. The model gives the
recursion an explicit depth budget; `parseInner` passes the length of the string plus one, which
is proved sufficient in `Verif/Proofs/ParserFuel.lean`.
Simplification: the `i32` depth counters are integers (no overflow after 2^31 parentheses), and
the machine stack is unbounded.
-/

namespace MUL

/-- `get_op_symbol`  (src/parser.rs 3-15). -/
def getOpSymbol (c : Char) : Option SimpleOp :=
  if c = '?' then some .get
  else if c = '+' then some .add
  else if c = '-' then some .sub
  else if c = '&' then some .addSub
  else if c = '*' then some .mult
  else if c = '/' then some .div
  else if c = '^' then some .pow
  else if c = '#' then some .cross
  else none

section
variable [UTable]

/-- The characters refused by `is_valid_var_name` outside of braces  (src/parser.rs 32-40). -/
def isOpOrEq (i : Char) : Bool :=
  i == '?' || i == '+' || i == '-' || i == '&' || i == '*' || i == '/' || i == '^' || i == '#'
    || i == '='

/-- The loop of `is_valid_var_name`  (src/parser.rs 25-48). -/
def validNameLoop : Str → Int → Char → Bool
  | [], _, _ => true
  | i :: rest, depth, prev =>
    let d1 := if i == '{' then depth + 1 else depth
    let d2 := if i == '}' then d1 - 1 else d1
    if isOpOrEq i && d2 == 0 then false
    else if UTable.isNumeric i && d2 == 0 && prev != '_' then false
    else validNameLoop rest d2 i

/-- `is_valid_var_name`  (src/parser.rs 18-50). `var_chars[0]` panics on the empty string. -/
def isValidVarName {ε : Type} (var : Str) : Out ε Bool := do
  let c0 ← idx var 0
  if !UTable.isAlphabetic c0 && c0 != '\\' then .ok false
  else .ok (validNameLoop var 0 '\\')

/-- First loop of `parse_inner`  (src/parser.rs 127-139): the final value of `parenths_open` and
of `check_parenths`; `i` is the index of the head of the list, `n` the length of the expression. -/
def checkLoop (n : Nat) : Str → Nat → Int → Bool → Int × Bool
  | [], _, depth, check => (depth, check)
  | c :: rest, i, depth, check =>
    let d1 := if c == '(' then depth + 1 else depth
    let d2 := if c == ')' then d1 - 1 else d1
    let check' := if c == ')' && d2 == 0 && i != n - 1 then false else check
    checkLoop n rest (i + 1) d2 check'

/-- Entry of `ops_in_expr`: operator, position, characters skipped before and after it. -/
structure OpAt where
  op : SimpleOp
  pos : Nat
  skipL : Nat
  skipR : Nat
  deriving DecidableEq, Repr

/-- `is_hidden_mult` at position `i`  (src/parser.rs 167-173): `last` is the previous character, `c`
the current one, `cs` the whole expression. -/
def isHiddenMult (cs : Str) (i : Nat) (last c : Char) : Bool :=
  let hidden :=
    (last.isDigit && (UTable.isAlphabetic c || c == '\\' || c == '(' || c == '['))
      || (last == ')' && c == '(')
  if hidden then
    if (i : Int) - 2 > 0 && cs[i - 2]? == some '_' then false else true
  else false

/-- Second loop of `parse_inner`  (src/parser.rs 166-211): the operators at nesting depth zero, in
order of position. `p`, `b`, `k` count open parentheses, brackets and braces. -/
def opsLoop (cs : Str) : Str → Nat → Char → Int → Int → Int → List OpAt
  | [], _, _, _, _, _ => []
  | c :: rest, i, last, p, b, k =>
    let hid : List OpAt :=
      if p == 0 && b == 0 && k == 0 && isHiddenMult cs i last c
      then [⟨.hiddenMult, i, 0, 0⟩] else []
    hid ++
      (if c == '(' then opsLoop cs rest (i + 1) c (p + 1) b k
      else if c == ')' then opsLoop cs rest (i + 1) c (p - 1) b k
      else if c == '[' then opsLoop cs rest (i + 1) c p (b + 1) k
      else if c == ']' then opsLoop cs rest (i + 1) c p (b - 1) k
      else if c == '{' then opsLoop cs rest (i + 1) c p b (k + 1)
      else if c == '}' then opsLoop cs rest (i + 1) c p b (k - 1)
      else
        let sym : List OpAt :=
          match getOpSymbol c with
          | some o =>
            if p == 0 && b == 0 && k == 0 && i != cs.length - 1 then
              if i == 0 && o == .sub then [⟨.neg, i, 0, 1⟩] else [⟨o, i, 0, 1⟩]
            else []
          | none => []
        sym ++ opsLoop cs rest (i + 1) c p b k)

/-- All operators at depth zero  (src/parser.rs 161-211). The parenthesis counter is reused from the
first loop; it is zero there. -/
def opsInExpr (cs : Str) : List OpAt := opsLoop cs cs 0 '\\' 0 0 0

/-- `op_types`  (src/parser.rs 160): loosest binding first. -/
def opTypes : List SimpleOp :=
  [.add, .sub, .addSub, .mult, .neg, .div, .cross, .hiddenMult, .pow, .get]

/-- `highest_op`  (src/parser.rs 213-220): smallest index in `op_types` of an operator that occurs,
but never more than 7. -/
def highestOp (ops : List OpAt) : Nat :=
  ops.foldl (fun h i =>
    let j := opTypes.idxOf i.op
    if j < h then j else h) 7

/-- The operator to split at  (src/parser.rs 222-247): the list is reversed for `-` and `*`; the
first entry (in that order) of the first operator type of `op_types` that occurs. -/
def splitOp (cs : Str) : Option OpAt :=
  let ops := opsInExpr cs
  let h := highestOp ops
  let ops := if h == 1 || h == 3 then ops.reverse else ops
  opTypes.findSome? fun o => ops.find? fun i => i.op == o

/-- `function_look_up`  (src/parser.rs 251). -/
def functionLookUp : List (SimpleOp × Str) :=
  [(.sin, "sin(".toList), (.cos, "cos(".toList), (.tan, "tan(".toList), (.abs, "abs(".toList),
   (.sqrt, "sqrt(".toList), (.root, "root(".toList), (.ln, "ln(".toList),
   (.arcsin, "arcsin(".toList), (.arccos, "arccos(".toList), (.arctan, "arctan(".toList),
   (.det, "det(".toList), (.inv, "inv(".toList)]

/-- `str::starts_with` -/
def startsWith (s p : Str) : Bool := p.isPrefixOf s

/-- `str::split("=")`, first two pieces  (src/parser.rs 330-331): the text before the first `=` and
the text between the first and the second one (or the end). `nth(1).unwrap()` cannot fail since the
entry contains `=`. -/
def splitEq (s : Str) : Str × Str :=
  (s.takeWhile (· != '='), ((s.dropWhile (· != '=')).drop 1).takeWhile (· != '='))

/-- Byte index of the first `(`: `expr.find("(")`  (src/parser.rs 354-355). -/
def findParen (s : Str) : Nat := byteLen (s.takeWhile (· != '('))

variable {F : Type} [FArith F]

/-- `get_args` plus parsing of each piece: `args.iter().map(|a| parse_inner(a)).collect()?`. -/
def parseAll (rec : Str → Out ParserError (AST F)) (args : List Str) : Out ParserError (List (AST F)) :=
  args.mapM rec

/-- Transposition of the rows of a matrix literal  (src/parser.rs 90-101), for `row in 0..m[0].len()`,
`col in 0..m.len()`. -/
def colMatrix (m : List (List (AST F))) : Out ParserError (List (List (AST F))) := do
  let m0 ← idx m 0
  (List.range m0.length).mapM fun i => (List.range m.length).mapM fun j => do
    let r ← idx m j
    idx r i

/-- The inner lists of a matrix literal  (src/parser.rs 78-83). -/
def asRow : AST F → Out ParserError (List (AST F))
  | .vector v => .ok v
  | _ => .err .notRectMatrix

/-- `AST::Vector(_)`? -/
def AST.isVector : AST F → Bool
  | .vector _ => true
  | _ => false

/-- `AST::Matrix(_)`? -/
def AST.isMatrix : AST F → Bool
  | .matrix _ => true
  | _ => false

/-- `parse_value`  (src/parser.rs 52-113). `s.len()` is the byte length but is used as an index into
the characters: `s.chars().nth(s.len()-1).unwrap()` panics if the string is not ASCII. -/
def parseValue (cfg : Cfg) (rec : Str → Out ParserError (AST F)) (s : Str) : Out ParserError (AST F) :=
  if !s.contains '[' then
    match (parseF64 s : Option F) with
    | some f => .ok (.scalar f)
    | none => .err (.parseValue s)
  else if byteLen s ≥ 2 then do
    let c0 ← idx s 0
    if c0 ≠ '[' then .err .missingBracket
    else do
      let cl ← idx s (byteLen s - 1)
      if cl ≠ ']' then .err .missingBracket
      else do
        let inner ← slice s 1 (byteLen s - 1)
        let args := getArgs inner
        let a0 ← idx args 0
        if a0.isEmpty then .err .emptyVec
        else do
          let outputV ← parseAll rec args
          let isVec := !(outputV.any AST.isVector)
          let isMat := !(outputV.any AST.isMatrix)
          if isVec && isMat then .ok (.vector outputV)
          else if isMat && !isVec then do
            let outputM ← outputV.mapM asRow
            let m0 ← idx outputM 0
            if outputM.any fun r => r.length != m0.length then .err .notRectMatrix
            else if cfg.rowMajor then .ok (.matrix outputM)
            else do
              let cm ← colMatrix outputM
              .ok (.matrix cm)
          else .err (.parseValue s)
  else .err (.parseValue s)

/-- One entry of `eq(..)`  (src/parser.rs 324-344): a search variable (no `=`) or an equation whose
sides are swapped when the right one is longer (in bytes). -/
def parseEqEntry (rec : Str → Out ParserError (AST F)) (entry : Str) :
    Out ParserError (Sum (AST F × AST F) Str) :=
  if !entry.contains '=' then .ok (.inr entry)
  else do
    let (left, right) := splitEq entry
    if byteLen left ≥ byteLen right then do
      let l ← rec left
      let r ← rec right
      .ok (.inl (l, r))
    else do
      let l ← rec right
      let r ← rec left
      .ok (.inl (l, r))

/-- Advanced operations  (src/parser.rs 283-350), tried in the order `I(`, `D(`, `eq(`; `none` if the
expression starts with none of them. -/
def parseAdvanced (rec : Str → Out ParserError (AST F)) (cs : Str) :
    Option (Out ParserError (AST F)) :=
  if startsWith cs "I(".toList then some do
    let inner ← slice cs 2 (cs.length - 1)
    let args := getArgs inner
    if args.length ≠ 4 then .err (.wrongNumberOfArgs "integral")
    else do
      let a0 ← idx args 0
      let f ← rec a0
      let a2 ← idx args 2
      let lb ← rec a2
      let a3 ← idx args 3
      let ub ← rec a3
      let a1 ← idx args 1
      .ok (.integral f a1 lb ub)
  else if startsWith cs "D(".toList then some do
    let inner ← slice cs 2 (cs.length - 1)
    let args := getArgs inner
    if args.length ≠ 3 then .err (.wrongNumberOfArgs "derivative")
    else do
      let a0 ← idx args 0
      let f ← rec a0
      let a2 ← idx args 2
      let at_ ← rec a2
      let a1 ← idx args 1
      .ok (.derivative f a1 at_)
  else if startsWith cs "eq(".toList then some do
    let inner ← slice cs 3 (cs.length - 1)
    let entries ← (getArgs inner).mapM (parseEqEntry rec)
    .ok (.equation (entries.filterMap Sum.getLeft?) (entries.filterMap Sum.getRight?))
  else none

/-- Built-in functions  (src/parser.rs 253-279). -/
def parseFunction (rec : Str → Out ParserError (AST F)) (cs : Str) :
    Option (Out ParserError (AST F)) :=
  match functionLookUp.find? fun i => startsWith cs i.2 with
  | none => none
  | some (op, p) => some (
    if op = .root then do
      let inner ← slice cs p.length (cs.length - 1)
      let args := getArgs inner
      if args.length ≠ 2 then .err (.wrongNumberOfArgs "root")
      else do
        let a0 ← idx args 0
        let l ← rec a0
        let a1 ← idx args 1
        let r ← rec a1
        .ok (.simple op l r)
    else do
      let inner ← slice cs p.length (cs.length - 1)
      let l ← rec inner
      .ok (.simple op l (.scalar (FArith.ofInt 0))))

/-- Custom functions, variables, lists and literals  (src/parser.rs 352-387). -/
def parseAtom (cfg : Cfg) (rec : Str → Out ParserError (AST F)) (cs : Str) : Out ParserError (AST F) := do
  let c0 ← idx cs 0
  let cl ← idx cs (cs.length - 1)
  if cs.contains '(' && findParen cs != 0 && cl == ')' then do
    let firstParenth := findParen cs
    let inner ← slice cs (firstParenth + 1) (cs.length - 1)
    let parsedArgs ← parseAll rec (getArgs inner)
    let funcName := cs.takeWhile (· != '(')
    let valid ← isValidVarName funcName
    if valid == false then .err (.invalidFunctionName funcName)
    else .ok (.function funcName parsedArgs)
  else if UTable.isAlphabetic c0 || c0 == '\\' then do
    let valid ← isValidVarName cs
    if valid == false then .err (.invalidVariableName cs)
    else .ok (.variable cs)
  else if c0 == '{' && cl == '}' then do
    let inner ← slice cs 1 (cs.length - 1)
    let l ← parseAll rec (getArgs inner)
    .ok (.list l)
  else parseValue cfg rec cs

/-- The body of `parse_inner`  (src/parser.rs 121-388); `rec` stands for the recursive calls. -/
def parseStep (cfg : Cfg) (rec : Str → Out ParserError (AST F)) (cs : Str) : Out ParserError (AST F) :=
  if cs.isEmpty then .err .emptyExpr
  else
    let (depth, check) := checkLoop cs.length cs 0 0 true
    if depth > 0 then .err .unmatchedOpenDelimiter
    else if depth < 0 then .err .unmatchedCloseDelimiter
    else do
      let c0 ← idx cs 0
      let cl ← idx cs (cs.length - 1)
      if check && c0 == '(' && cl == ')' then do
        let inner ← slice cs 1 (cs.length - 1)
        let l ← rec inner
        .ok (.simple .parenths l (.scalar (FArith.ofInt 0)))
      else
        match splitOp cs with
        | some i => do
          let leftS ← slice cs 0 (i.pos - i.skipL)
          let rightS ← slice cs (i.pos + i.skipR) cs.length
          let r ← rec rightS
          if leftS.isEmpty then .ok (.simple i.op (.scalar (FArith.ofInt 0)) r)
          else do
            let l ← rec leftS
            .ok (.simple i.op l r)
        | none =>
          match parseFunction rec cs with
          | some res => res
          | none =>
            match parseAdvanced rec cs with
            | some res => res
            | none => parseAtom cfg rec cs

/-- `parse_inner` with the recursion depth bounded by the first argument  (src/parser.rs 121-388). -/
def parseFuel (cfg : Cfg) : Nat → Str → Out ParserError (AST F)
  | 0, _ => .timeout
  | n + 1, cs => parseStep cfg (parseFuel cfg n) cs

/-- `parse_inner`  (src/parser.rs 121-388). -/
def parseInner (cfg : Cfg) (cs : Str) : Out ParserError (AST F) := parseFuel cfg (cs.length + 1) cs

end

/-- Unicode `White_Space`, used by `str::trim`. -/
def isWhitespace (c : Char) : Bool :=
  let n := c.toNat
  (9 ≤ n && n ≤ 13) || n == 32 || n == 133 || n == 160 || n == 5760 || (8192 ≤ n && n ≤ 8202)
    || n == 8232 || n == 8233 || n == 8239 || n == 8287 || n == 12288

/-- `str::trim` -/
def trim (s : Str) : Str := ((s.dropWhile isWhitespace).reverse.dropWhile isWhitespace).reverse

/-- `expr.trim().split(" ").filter(|s| !s.is_empty()).collect()`: the trimmed string without its
spaces  (src/parser.rs 117). -/
def stripBlanks (s : Str) : Str := (trim s).filter (· != ' ')

/-- `parse`  (src/parser.rs 116-119). -/
def parse {F : Type} [FArith F] [UTable] (cfg : Cfg) (expr : Str) : Out ParserError (AST F) :=
  parseInner cfg (stripBlanks expr)

end MUL
