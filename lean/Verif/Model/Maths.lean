import Verif.Model.Helpers
/-!
# Arithmetic on values  (src/maths.rs, src/maths/*.rs)

Errors of these functions are `String`s (`Result<Value, String>`).
-/

namespace MUL

section
variable {F : Type} [FArith F]

open FArith

/-- `m[i][j]`: two indexings, each of which panics when out of range. -/
def idx2 {ε α : Type} (m : List (List α)) (i j : Nat) : Out ε α := do
  let r ← idx m i
  idx r j

/-! ## src/maths/add_sub.rs -/

/-- `sadd`  (src/maths/add_sub.rs 4-6). -/
def sadd (a b : F) : Out String (Value F) := .ok (.scalar (add a b))

/-- `vadd`  (src/maths/add_sub.rs 9-18). -/
def vadd (a b : List F) : Out String (Value F) :=
  if a.length ≠ b.length then .err "Vectors have different dimensions!"
  else do
    let o ← (List.range a.length).mapM fun i => do
      let x ← idx a i
      let y ← idx b i
      .ok (add x y)
    .ok (.vector o)

/-- `madd`  (src/maths/add_sub.rs 21-34). `a[0]`, `b[0]` panic on a matrix without rows; `a[i][j]`
panics on ragged rows. -/
def madd (a b : List (List F)) : Out String (Value F) :=
  if a.length ≠ b.length then .err "Matrices have different dimensions!"
  else do
    let a0 ← idx a 0
    let b0 ← idx b 0
    if a0.length ≠ b0.length then .err "Matrices have different dimensions!"
    else do
      let o ← (List.range a.length).mapM fun i => (List.range a0.length).mapM fun j => do
        let x ← idx2 a i j
        let y ← idx2 b i j
        .ok (add x y)
      .ok (.matrix o)

/-- `vsub`  (src/maths/add_sub.rs 37-43). -/
def vsub (a b : List F) : Out String (Value F) := vadd a (b.map fun x => mul x (ofInt (-1)))

/-- `msub`  (src/maths/add_sub.rs 46-56). -/
def msub (a b : List (List F)) : Out String (Value F) := do
  let bNeg ← (List.range b.length).mapM fun i => do
    let b0 ← idx b 0
    (List.range b0.length).mapM fun j => do
      let y ← idx2 b i j
      .ok (mul y (ofInt (-1)))
  madd a bNeg

/-! ## src/maths/mult_div.rs -/

/-- `ssmult`  (src/maths/mult_div.rs 4-6). -/
def ssmult (a b : F) : Out String (Value F) := .ok (.scalar (mul a b))

/-- `svmult`  (src/maths/mult_div.rs 9-15). -/
def svmult (a : F) (b : List F) : Out String (Value F) := .ok (.vector (b.map fun i => mul i a))

/-- `smmult`  (src/maths/mult_div.rs 18-28). -/
def smmult (a : F) (b : List (List F)) : Out String (Value F) := do
  let o ← (List.range b.length).mapM fun i => do
    let b0 ← idx b 0
    (List.range b0.length).mapM fun j => do
      let y ← idx2 b i j
      .ok (mul y a)
  .ok (.matrix o)

/-- `vvmult`  (src/maths/mult_div.rs 31-40). -/
def vvmult (a b : List F) : Out String (Value F) :=
  if a.length ≠ b.length then .err "Vectors have different dimensions!"
  else do
    let s ← (List.range a.length).foldlM (fun sum i => do
      let x ← idx a i
      let y ← idx b i
      .ok (add sum (mul x y))) (ofInt 0)
    .ok (.scalar s)

/-- `mvmult`  (src/maths/mult_div.rs 43-56). -/
def mvmult (a : List (List F)) (b : List F) : Out String (Value F) := do
  let a0 ← idx a 0
  if a0.length ≠ b.length then .err "Vector and matrix have incompatible dimensions!"
  else do
    let o ← (List.range a.length).mapM fun i => do
      let ai ← idx a i
      (List.range ai.length).foldlM (fun sum j => do
        let x ← idx ai j
        let y ← idx b j
        .ok (add sum (mul x y))) (ofInt 0)
    .ok (.vector o)

/-- `mmmult`  (src/maths/mult_div.rs 59-76). -/
def mmmult (a b : List (List F)) : Out String (Value F) := do
  let a0 ← idx a 0
  if a0.length ≠ b.length then .err "Matrices have incompatible dimensions!"
  else do
    let o ← (List.range a.length).mapM fun i => do
      let b0 ← idx b 0
      (List.range b0.length).mapM fun j =>
        (List.range a0.length).foldlM (fun sum k => do
          let x ← idx2 a i k
          let y ← idx2 b k j
          .ok (add sum (mul x y))) (ofInt 0)
    .ok (.matrix o)

/-- `ssdiv`  (src/maths/mult_div.rs 79-81). -/
def ssdiv (a b : F) : Out String (Value F) := .ok (.scalar (div a b))

/-- `vsdiv`  (src/maths/mult_div.rs 84-86). -/
def vsdiv (a : List F) (b : F) : Out String (Value F) := svmult (div (ofInt 1) b) a

/-- `vvdiv`  (src/maths/mult_div.rs 89-99). -/
def vvdiv (a b : List F) : Out String (Value F) :=
  if a.length ≠ b.length then .err "Vectors have incompatible dimensions!"
  else do
    let s ← (List.range a.length).foldlM (fun sum i => do
      let x ← idx a i
      let y ← idx b i
      .ok (add sum (div x y))) (ofInt 0)
    .ok (.scalar s)

/-- `msdiv`  (src/maths/mult_div.rs 102-104). -/
def msdiv (a : List (List F)) (b : F) : Out String (Value F) := smmult (div (ofInt 1) b) a

/-! ## src/maths/cross_pow.rs -/

/-- `vcross`  (src/maths/cross_pow.rs 6-32): both vectors padded with zeros to length 3. -/
def vcross (a b : List F) : Out String (Value F) :=
  if a.length ≠ b.length then .err "Vectors have different dimensions!"
  else if a.length > 3 then .err "Can't compute cross product with dim(V) > 3!"
  else do
    let ea ← (List.range 3).mapM fun i => if i < a.length then idx a i else .ok (ofInt 0)
    let eb ← (List.range 3).mapM fun i => if i < a.length then idx b i else .ok (ofInt 0)
    let a0 ← idx ea 0
    let a1 ← idx ea 1
    let a2 ← idx ea 2
    let b0 ← idx eb 0
    let b1 ← idx eb 1
    let b2 ← idx eb 2
    .ok (.vector [sub (mul a1 b2) (mul a2 b1), sub (mul a2 b0) (mul a0 b2),
      sub (mul a0 b1) (mul a1 b0)])

/-- `mspow`  (src/maths/cross_pow.rs 40-61): identity-like start matrix of the shape of `a`, then
`*b as i32` multiplications (none when that is not positive). -/
def mspow (a : List (List F)) (b : F) : Out String (Value F) :=
  if !beq (round b) b then .err "Exponent must be an integer!"
  else do
    let start ← (List.range a.length).mapM fun i => do
      let a0 ← idx a 0
      .ok ((List.range a0.length).map fun j => if i = j then (ofInt 1 : F) else ofInt 0)
    let m ← (List.range (toI32 b).toNat).foldlM (fun (mult : List (List F)) (_ : Nat) => do
      let p ← mmmult mult a
      Out.unwrap p.getMatrix) start
    .ok (.matrix m)

/-! ## src/maths/special.rs -/

/-- Rows of `a[1..]` with column `i` removed  (src/maths/special.rs 14). The two slices panic when
a row is too short. -/
def minor {ε : Type} (a : List (List F)) (i : Nat) : Out ε (List (List F)) :=
  (a.drop 1).mapM fun r => do
    let l ← slice r 0 i
    let h ← slice r (i + 1) r.length
    .ok (l ++ h)

/-- `det_m`  (src/maths/special.rs 4-19), Laplace expansion along the first row. The recursion is
on smaller matrices; the first argument bounds its depth and `detM` passes the number of rows. -/
def detFuel : Nat → List (List F) → Out String (Value F)
  | 0, _ => .timeout
  | n + 1, a => do
    let nonRect ←
      (if a.isEmpty then (.ok false : Out String Bool) else do
        let a0 ← idx a 0
        .ok ((a.filter fun r => r.length != a0.length).length != 0))
    if nonRect then .err "Can't calculate determinant of a non-square matrix!"
    else do
      let a0 ← idx a 0
      if a.length ≠ a0.length then .err "Can't calculate determinant of a non-square matrix!"
      else if a.length = 1 then do
        let x ← idx2 a 0 0
        .ok (.scalar x)
      else if a.length = 2 then do
        let p ← idx2 a 0 0
        let q ← idx2 a 1 1
        let r ← idx2 a 0 1
        let s ← idx2 a 1 0
        .ok (.scalar (sub (mul p q) (mul r s)))
      else do
        let s ← (List.range a0.length).foldlM (fun sum i => do
          let m ← minor a i
          let x ← idx2 a 0 i
          let d ← detFuel n m
          let d ← Out.unwrap d.getScalar
          .ok (add sum (mul (mul (powi (ofInt (-1)) i) x) d))) (ofInt 0)
        .ok (.scalar s)

/-- `det_m`  (src/maths/special.rs 4-19). -/
def detM (a : List (List F)) : Out String (Value F) := detFuel (a.length + 1) a

/-- One row elimination, the body of the `j` loop in `inv_m` and `gauss_algorithm`
(src/maths/special.rs 45-55, 72-82; src/roots.rs 47-57, 74-84):
`divisor = v[i][i]/v[j][i]`, then `v[j][k] -= v[i][k]/divisor` for `k` in `i..v[j].len()`; fails if
all these entries became `== 0`. The `k` loop reads only row `i` and position `k` of row `j`, so it
is written as a map over row `j`. -/
def elimStep {ε : Type} (zeroLine : ε) (v : List (List F)) (ij : Nat × Nat) : Out ε (List (List F)) := do
  let (i, j) := ij
  let p ← idx2 v i i
  let q ← idx2 v j i
  let divisor := div p q
  let vi ← idx v i
  let vj ← idx v j
  let vj' ← vj.zipIdx.mapM fun (x, k) =>
    if k < i then (.ok x : Out ε F) else do
      let y ← idx vi k
      .ok (sub x (div y divisor))
  if (vj'.drop i).all fun x => beq x (ofInt 0) then .err zeroLine
  else .ok (v.set j vj')

/-- The index pairs visited by `for i in 0..n-1 { for j in (i+1)..n { .. } }`. -/
def elimPairs (n : Nat) : List (Nat × Nat) :=
  (List.range (n - 1)).flatMap fun i => (List.range' (i + 1) (n - (i + 1))).map fun j => (i, j)

/-- The nested elimination loops  (src/maths/special.rs 43-57, 70-84; src/roots.rs 45-59, 72-86). -/
def eliminate {ε : Type} (zeroLine : ε) (v : List (List F)) : Out ε (List (List F)) :=
  (elimPairs v.length).foldlM (elimStep zeroLine) v

/-- `for _ in 0..n { let value = v[i].remove(0); v[i].push(value); }`: rotate a row left by `n`
(src/maths/special.rs 63-68; rows have `2n` entries there). -/
def rotate {α : Type} : Nat → List α → List α
  | 0, l => l
  | _ + 1, [] => []
  | n + 1, x :: l => rotate n (l ++ [x])

/-- `inv_m`  (src/maths/special.rs 22-98). `row.insert(0, ..)`/`result_mat.insert(0, ..)` build the
result reversed. -/
def invM (a : List (List F)) : Out String (Value F) :=
  match detM a with
  | .err _ => .err "Can't calculate inverse of a non-square matrix!"
  | .panic => .panic
  | .timeout => .timeout
  | .ok d =>
    let isZero := match d with
      | .scalar x => beq x (ofInt 0)
      | _ => false
    if isZero then .err "Can't calculate inverse of a matrix with determinant 0!"
    else do
      let n := a.length
      let v := a.zipIdx.map fun (r, i) =>
        r ++ (List.range n).map fun j => if j = i then (ofInt 1 : F) else ofInt 0
      let v ← eliminate "Infinite solutions" v
      let v := (v.reverse.map List.reverse).map (rotate n)
      let v ← eliminate "Infinite solutions" v
      let rows ← (List.range v.length).mapM fun i => do
        let vi ← idx v i
        let p ← idx vi i
        let mult := div (ofInt 1) p
        let row ← (List.range' (vi.length - n) n).mapM fun j => do
          let x ← idx vi j
          .ok (mul x mult)
        .ok row.reverse
      .ok (.matrix rows.reverse)

end

/-! ## src/maths.rs: dispatch on the kinds of the operands -/

section
variable {F : Type} [FArith F] [FElem F]

open FArith FElem

/-- `add`  (src/maths.rs 10-22). -/
def vAdd : Value F → Value F → Out String (Value F)
  | .scalar a, .scalar b => sadd a b
  | .vector a, .vector b => vadd a b
  | .matrix a, .matrix b => madd a b
  | .vector _, .scalar _ => .err "Can't add scalar to vector!"
  | .scalar _, .vector _ => .err "Can't add vector to scalar!"
  | .matrix _, .scalar _ => .err "Can't add scalar to matrix!"
  | .scalar _, .matrix _ => .err "Can't add matrix to scalar!"
  | .vector _, .matrix _ => .err "Can't add matrix to vector!"
  | .matrix _, .vector _ => .err "Can't add vector to matrix!"

/-- `sub`  (src/maths.rs 25-37). -/
def vSub : Value F → Value F → Out String (Value F)
  | .scalar a, .scalar b => sadd a (mul b (ofInt (-1)))
  | .vector a, .vector b => vsub a b
  | .matrix a, .matrix b => msub a b
  | .vector _, .scalar _ => .err "Can't subtract scalar from vector!"
  | .scalar _, .vector _ => .err "Can't subtract vector from scalar!"
  | .matrix _, .scalar _ => .err "Can't subtract scalar from matrix!"
  | .scalar _, .matrix _ => .err "Can't subtract matrix from scalar!"
  | .vector _, .matrix _ => .err "Can't subtract matrix from vector!"
  | .matrix _, .vector _ => .err "Can't subtract vector from matrix!"

/-- `mult`  (src/maths.rs 40-52). -/
def vMult : Value F → Value F → Out String (Value F)
  | .scalar a, .scalar b => ssmult a b
  | .vector a, .scalar b => svmult b a
  | .scalar a, .vector b => svmult a b
  | .scalar a, .matrix b => smmult a b
  | .matrix a, .scalar b => smmult b a
  | .matrix a, .matrix b => mmmult a b
  | .vector a, .vector b => vvmult a b
  | .matrix a, .vector b => mvmult a b
  | .vector _, .matrix _ => .err "Vector has to be on the right side of linear transformation!"

/-- `neg`  (src/maths.rs 55-61). -/
def vNeg : Value F → Out String (Value F)
  | .scalar a => .ok (.scalar (mul (ofInt (-1)) a))
  | .vector a => .ok (.vector (a.map fun x => mul (ofInt (-1)) x))
  | .matrix a => .ok (.matrix (a.map fun x => x.map fun y => mul (ofInt (-1)) y))

/-- `div`  (src/maths.rs 64-76). -/
def vDiv : Value F → Value F → Out String (Value F)
  | .scalar a, .scalar b => ssdiv a b
  | .vector a, .scalar b => vsdiv a b
  | .matrix a, .scalar b => msdiv a b
  | .vector a, .vector b => vvdiv a b
  | .scalar _, .vector _ => .err "Can't divide scalar by vector!"
  | .scalar _, .matrix _ => .err "Can't divide scalar by matrix!"
  | .matrix _, .vector _ => .err "Can't divide matrix by vector!"
  | .vector _, .matrix _ => .err "Can't divide vector by matrix!"
  | .matrix _, .matrix _ => .err "Can't divide matrix by matrix!"

/-- `cross`  (src/maths.rs 79-84). -/
def vCross : Value F → Value F → Out String (Value F)
  | .vector a, .vector b => vcross a b
  | _, _ => .err "Cross product can only be computed between two vectors!"

/-- `get`  (src/maths.rs 87-100). `a.len() - 1` underflows (panics) on an empty vector: with
overflow checks at the subtraction, without them at the indexing that follows. -/
def vGet : Value F → Value F → Out String (Value F)
  | .vector a, .scalar b =>
    if !beq (rem b (ofInt 1)) (ofInt 0) || isSignNeg b then
      .err "Index must be a positive Integer!"
    else if a.length = 0 then .panic
    else if toUsize b > a.length - 1 then .err "Index out of bounds for vector!"
    else do
      let x ← idx a (toUsize b)
      .ok (.scalar x)
  | _, _ => .err "Can only index vector with scalar!"

/-- `pow`  (src/maths.rs 103-109); `sspow` is `powf`  (src/maths/cross_pow.rs 35-37). -/
def vPow : Value F → Value F → Out String (Value F)
  | .scalar a, .scalar b => .ok (.scalar (powf a b))
  | .matrix m, .scalar b => mspow m b
  | _, _ => .err "Can only raise scalar or matrix to the power of scalar!"

/-- `sin`  (src/maths.rs 112-118). -/
def vSin : Value F → Out String (Value F)
  | .scalar a => .ok (.scalar (sin a))
  | .vector _ => .err "Can't take sin of vector!"
  | .matrix _ => .err "Can't take sin of matrix!"

/-- `cos`  (src/maths.rs 121-127). -/
def vCos : Value F → Out String (Value F)
  | .scalar a => .ok (.scalar (cos a))
  | .vector _ => .err "Can't take cos of vector!"
  | .matrix _ => .err "Can't take cos of matrix!"

/-- `tan`  (src/maths.rs 130-136). -/
def vTan : Value F → Out String (Value F)
  | .scalar a => .ok (.scalar (tan a))
  | .vector _ => .err "Can't take tan of vector!"
  | .matrix _ => .err "Can't take tan of matrix!"

/-- `arcsin`  (src/maths.rs 139-145). -/
def vArcsin : Value F → Out String (Value F)
  | .scalar a => .ok (.scalar (asin a))
  | .vector _ => .err "Can't take arcsin of vector!"
  | .matrix _ => .err "Can't take arcsin of matrxi!"

/-- `arccos`  (src/maths.rs 148-154). -/
def vArccos : Value F → Out String (Value F)
  | .scalar a => .ok (.scalar (acos a))
  | .vector _ => .err "Can't take arccos of vector!"
  | .matrix _ => .err "Can't take arccos of matrix!"

/-- `arctan`  (src/maths.rs 157-163). -/
def vArctan : Value F → Out String (Value F)
  | .scalar a => .ok (.scalar (atan a))
  | .vector _ => .err "Can't take arctan of vector!"
  | .matrix _ => .err "Can't take arctan of matrix!"

/-- `abs`  (src/maths.rs 166-181). -/
def vAbs : Value F → Out String (Value F)
  | .scalar a => if lt a (ofInt 0) then .ok (.scalar (mul a (ofInt (-1)))) else .ok (.scalar a)
  | .vector a => .ok (.scalar (sqrt (a.foldl (fun sum i => add sum (powi i 2)) (ofInt 0))))
  | .matrix _ => .err "Can't take abs of matrix!"

/-- `sqrt`  (src/maths.rs 184-190). -/
def vSqrt : Value F → Out String (Value F)
  | .scalar a => .ok (.scalar (sqrt a))
  | .vector _ => .err "Can't take sqrt of vector!"
  | .matrix _ => .err "Can't take sqrt of matrix!"

/-- `root`  (src/maths.rs 193-200). -/
def vRoot : Value F → Value F → Out String (Value F)
  | .scalar a, .scalar b => .ok (.scalar (powf a (div (ofInt 1) b)))
  | _, _ => .err "Can only take root of a scalar!"

/-- `ln`  (src/maths.rs 203-209). -/
def vLn : Value F → Out String (Value F)
  | .scalar a => .ok (.scalar (ln a))
  | .vector _ => .err "Can't take ln of vector!"
  | .matrix _ => .err "Can't take ln of matrix!"

/-- `det`  (src/maths.rs 212-218). -/
def vDet : Value F → Out String (Value F)
  | .scalar _ => .err "Can't calculate determinant of a scalar!"
  | .vector _ => .err "Can't calculate determinant of a vector!"
  | .matrix m => detM m

/-- `inv`  (src/maths.rs 221-227). -/
def vInv : Value F → Out String (Value F)
  | .scalar _ => .err "Can't calculate inverse of a scalar!"
  | .vector _ => .err "Can't calculate inverse of a vector!"
  | .matrix m => invM m

end

end MUL
