# Formal model of math_utils_lib in Lean 4

## 1. Trusted base

* Lean 4.33.0's kernel, and the axioms `propext`, `Classical.choice`, `Quot.sound` (nothing else; every
  theorem listed in MANIFEST.json can be checked with `#print axioms`). No own axioms, no compiled-code tactics.
* The reading of the Rust source: each definition of the model cites file and lines in /repo.
* The reading of the Rust standard library functions that the code calls (`str::parse::<f64>` grammar,
  `str::trim`, `split`, `Vec::remove`, stable `sort_by`, saturating `as` casts, slicing and `unwrap` panics).

## 2. What is modelled

| Rust | Lean |
|---|---|
| src/basetypes.rs types, `Context`, `Value::round`, `is_inf_or_nan`, `AST::from_value` | `Verif/Model/Basetypes.lean` |
| src/basetypes.rs, src/latex.rs, src/helpers.rs text output | `Verif/Model/Print.lean` |
| src/latex.rs images and documents | `Verif/Model/Output.lean` |
| src/helpers.rs `center_in_string`, `cart_prod`, `get_args` | `Verif/Model/Helpers.lean` |
| src/maths.rs, src/maths/{add_sub,mult_div,cross_pow,special}.rs | `Verif/Model/Maths.lean` |
| src/parser.rs 3-388 (`parse`, `parse_inner`, `parse_value`, `is_valid_var_name`) | `Verif/Model/Parser.lean` |
| src/parser.rs 390-586 (`eval`), src/maths/calculus.rs, src/roots.rs, src/solver.rs, `quick_eval` | `Verif/Model/Eval.lean` |
| src/errors.rs error types, conversions and texts | `Verif/Model/Errors.lean` |
| the lines `calculate_integral` prints, and everything that can reach it | `Verif/Model/Trace.lean` |
| derived `PartialEq` of the public types | `Verif/Model/Equality.lean` |
| `value!`, `From`/`Into`, accessors and iterators of `Value`/`Values` | `Verif/Model/Values.lean` |
| derived `Serialize`/`Deserialize` (feature `serde`) | `Verif/Model/Serde.lean` |
| src/maths/calculus.rs called directly: the borrowed context after the call | `Verif/Model/Borrowed.lean` |

Outcomes are `Out ε α = ok | err | panic | timeout`. `panic` is every Rust panic path on modelled code:
slice and `Vec` indexing out of range, `unwrap` of `None`/`Err`, `usize` underflow. `timeout` only says
that the step budget given to the model was used up. The parser's budget is proved sufficient (C05); for
the evaluator, more budget never changes a finished outcome (C18), so "`eval` returns `r`" means
"there is a budget for which the model returns `r`".

**Numbers.** The code computes with `f64`. The model is generic in the number type `F` with the operations
of class `FNum` (arithmetic, comparison, classification, `powi`, `round`, elementary functions, formatting).
Structural theorems quantify over *every* `F`, hence hold for IEEE doubles whatever their rounding.
Numeric theorems (determinant, inverse, products, integral, derivative ...) are about exact arithmetic:
they are stated for every number type that satisfies the law class in `Verif/Num/Exact.lean`, i.e. the special values of IEEE-754
(NaN, infinities, signed zeros) over an ordered field, without rounding. C67-C71 and C73-C75 are about rounding: they are stated for every number type
whose basic operations are those of binary64 (`Num/Binary64.lean`, round to nearest even as modelled in `Num/F64.lean`) and whose elementary
functions have relative accuracy `u` (`Libm` in `Num/Libm.lean`, which for C89 also says that squares and square roots of infinities and NaN are not finite; Rust documents no such bound, so it is an assumption). C74 and C75
also assume that `powi` of 10 (up to the 22nd power) and of -1 is exact (`Tens` in `Num/Tens.lean`). `Double` with correctly rounded functions and
the `powi` loop of compiler-rt is an instance of all three.
The law classes are not vacuous: `Num/Ext.lean` builds a model of the exact laws over every ordered field, `Num/Rat.lean`
is the computable instance over the rationals (`Q`) used in examples, `Num/Real.lean` (`ExactReal`) adds elementary functions that
agree with the real ones on their domain, `Num/Text.lean` (`TextLaws`) the shape of Rust's `Display`/`LowerExp` texts with the instance
`Num/RatText.lean`. `Num/F64.lean` is a concrete model of binary64 (round to nearest even on rationals) used for the witnesses
in which rounding is the point.

**Unicode.** `char` = Lean `Char`; `is_alphabetic`/`is_numeric` are an arbitrary table that is fixed only on ASCII (`UTable`).

**Features.** `Cfg` carries `PREC` (`high-prec`) and `row-major`. 

### Not modelled

* the text of the line `calculate_integral` prints (C91 has its content); stack depth and memory exhaustion; `i32` overflow of
  the parenthesis counters and the `i32` casts of text positions (need texts of 2^31 characters; the cast in `Value::round` is modelled); the texts and limits of serde formats (the generated code is modelled for C86); what the external crates of the `output` feature do (they are parameters of `Verif/Model/Output.lean`);
  documentation and examples.
* `f64` rounding in the numeric theorems other than C67-C71, C73-C75, C83-C85 and C89 (see above). Elementary functions (`sin`, `ln`, `powf`, ...) are arbitrary except in
  the theorems that assume `ExactReal` (C60, parts of C33/C48), where they are the real ones.
* `iter().sum()` is modelled starting from `0.0` (Rust's current library starts at `-0.0`; the results differ at most in the sign of a zero under a square root).

## 3. Method

`Verif/Spec/*` holds specifications that do not mention the model's helpers; `Verif/Proofs/*` lemmas;
`Verif/Props/*` the property theorems (named `Cnn_...`) with concrete instances of their hypotheses beside them.
`Verif/Witness/*` applies every remaining theorem with hypotheses to concrete data (numbers `Q`, `Ext ℝ`, `Double`), so that no theorem is vacuous; this audit found
that an earlier `C98_inline` was (its context condition excluded the function's own parameter), and C25, C79 and C98 were strengthened.
Properties that a user would expect but that are false of the code are worded in properties.jsonl as what the code does;
the negation of the expectation is proved on a concrete witness (`..._false`) next to the characterisation of the actual behaviour.
Faithfulness of the model is also tested (not proved): `Verif/Conformance.lean` instantiates the number interface with Lean's compiled
`Float` and `tools/conformance.sh` executes the 61 tests of src/tests.rs that need no external crate on the model; all pass. No theorem uses that module.
MANIFEST.json maps properties to theorems; seeded/LOG.jsonl records the mutation experiments.

## 4. Plan per property

| id | modelled | proof |
|---|---|---|
| C01, C02 | `Context` operations | refinement to a map `name -> option` by induction over the history |
| C03 | `cartProd` | equality with the recursive product; membership, count, order (lexicographic positions) |
| C04 | `getArgs` | loop invariant against a declarative top-level-comma spec |
| C05 | `parse` | fuel monotonicity + every recursive call is on a strictly shorter string |
| C06 | `parse` | ASCII: byte length = length, no slice or unwrap fails; non-ASCII: witnesses |
| C07 | `parse` | through `stripBlanks` |
| C08 | `parse` | counting lemma for the delimiter loop |
| C09 | `parse` | concrete syntax trees, `render`, `parse (render e) = toAST e` by induction |
| C10 | `parse`, `eval` | witness for all a b c; right-nesting proved |
| C11 | `parse` | induction on the budget |
| C12 | matrix literals | index equation for the transposition |
| C13 | `root`, `D`, `I` | case analysis through the parser front end |
| C14 | `parseF64`, `parseInner` | decimal numeral spec; inversion of the parser for scalars (`Props/Literals.lean`) |
| C15 | `eq` entries | witness + exact description for one `=` |
| C16 | `isValidVarName` | equivalence with a declarative predicate |
| C17 | `parse` | witness |
| C18 | `eval` | budget monotonicity |
| C19-C22 | `eval` | equations for the evaluator, independent of the budget, with `List.product`-style specs |
| C23 | `eval` | direct recursion: error; mutual recursion: no budget suffices; any circle of needed calls: no value (induction on the budget) |
| C24 | `eval` | induction on rank and tree |
| C25 | `eval` | relation on contexts preserved by every function |
| C26, C27 | `eval` | well-formedness invariant |
| C28, C29 | `eval`, `quickEval` | computation |
| C30-C37 | arithmetic | bridge from lists to Mathlib matrices/functions |
| C38 | `vGet` | exact arithmetic laws for `rem`, `toUsize` |
| C39 | rounding, with the precision cast to `i32` | ordered-field argument; arithmetic modulo 2^32 for the wrapped precisions |
| C40 | dispatch | case table |
| C41-C43 | integral | closed form by induction over the loop |
| C44 | derivative | computation |
| C45-C49 | root finder | loop invariants over Newton iterations and start values |
| C50 | `solve` | computation |
| C51, C59 | printing + parsing | round-trip by induction |
| C52-C56 | LaTeX | bracket counting by induction, explicit layouts |
| C57, C58 | Unicode printing | width lemmas |
| C60 | `parse`, `eval`, arithmetic | denotation over the reals, induction over the expression |
| C61 | error types | injectivity of the texts |
| C62 | `AST::as_latex` | independent LaTeX reader (stack machine), simulation by induction over the tree |
| C63 | `Value::round_and_format` | independent decimal notation (`Spec/Numbers.lean`), exact arithmetic |
| C64 | `eq` with one equation and one variable | Newton's method over the reals (`Spec/Newton.lean`), simulation of the loops; convergence for quadratics by an interval argument |
| C65 | `value!`, `Value`/`Values` accessors, `==`, `is_inf_or_nan` | case analysis, induction over rows; literals via C60's denotation |
| C66 | `D` and `I` against the true derivative and integral | error bounds from mathlib's integral (fundamental theorem), applied to C44/C41/C60 |
| C67 | formulas in binary64 | rules of rounding error analysis (`Spec/Rounding.lean`), induction over the derivation; exact values via C60's denotation |
| C68 | whole-number formulas in binary64 | special case of C67 with all bounds zero (`Spec/Whole.lean`) |
| C69 | `D` at large points in binary64 | spacing of binary64 numbers: `a + h` is rounded to `a` |
| C70 | `D` in binary64 against the true derivative | error analysis of the difference quotient on top of C67 |
| C71 | `I` in binary64 against the true integral | `C41_loop` (any arithmetic); the rounded steps, sample points and sums bounded with real numbers only (`Proofs/SliceSum.lean`, `Proofs/FloatIntegral.lean`) |
| C72 | operators and functions on numbers | computation, on top of C19 and C09; in binary64 `(-1)*a` is shown to be the negation |
| C73 | `I` at large points in binary64 | `C43_never` (any arithmetic) and the spacing of binary64 numbers |
| C74 | `Value::round` in binary64 | the rounded product, its rounding to a whole number and the rounded quotient bounded with rational numbers (`Props/FloatRound.lean`); powers of ten up to `10^22` are exact (`Tens`) |
| C75 | products, determinants and the test for singular matrices in binary64 | induction on the number of terms and on the size of the matrix with growth factors `(1+2^-53)^k` (`Proofs/FloatLinear.lean`); results on a grid `2^-k` exclude underflow and make whole numbers exact |
| C76 | `eq` with several equations and variables | the procedure over the reals (`Spec/Systems.lean`: matrix inverse, leading minors), simulation of the root finder and the elimination (`Proofs/Gauss.lean`, `Proofs/Systems.lean`); consequences for linear systems |
| C77 | `svgFromLatex`, `pngFromLatex`, `exportHistory` with the external crates as parameters | the text is cut at the occurrences of the pattern; the pattern has no border |
| C78 | `eval`, `solve` unchanged; renaming of trees and contexts in `Spec/Rename.lean` | relational lifting of outcomes (`Sim`), proved for every function of the evaluator and root finder, then induction on the budget; texts (`Spec/RenameText.lean`) by C09 and, for expressions with equations in one unknown only and names of other lengths, C106 and C107 (`Proofs/SidesAnywhere.lean`) |
| C79 | `eval` unchanged; `Replaced` and `substitute` in `Spec/Replace.lean` | approximation order on outcomes, proved for every function of the evaluator and root finder, then induction on the budget |
| C80 | `eval`, root finder unchanged; `NumberFormula`, `NumberContext`, `Harmless` in `Spec/Safe.lean` | every function of the root finder is safe if the evaluator maps formulas of numbers to numbers; induction on the budget; for all arithmetics, exact reals and binary64 |
| C81 | `eval`, root finder unchanged; `Residuals`, `Negligible` of C45 | induction over the start values: each contributes the same empty solution |
| C82 | `eval` unchanged; `ValueCount`, `OneValued` in `Spec/Counts.lean` | induction on the budget with the counts as invariant; the number of solutions bounded by induction over the root finder |
| C83 | `vAdd`, `vMult`, ... on numbers of `Binary64` | case analysis on zeros, infinities, NaN; rounding is monotone; counterexamples by kernel computation; expressions by C72 |
| C84 | `eval` unchanged; `Gives`, `Number` in `Spec/CalculusRules.lean` | from C41 and C44: algebra of the sums and difference quotients |
| C85 | derived `PartialEq` in `Model/Equality.lean`; `Alike`, `Written` in `Spec/Equality.lean` | induction on trees; numbers in parsed trees are decimals (induction over the parser), on which IEEE `==` is identity |
| C86 | code generated by `serde_derive` on a tree of numbers, strings, lists and maps (`Model/Serde.lean`), numbers of a format as parameter; texts of formats not modelled | induction on expressions; `Alike` of C85 as specification |
| C87 | the search of C64 (`Spec/Newton.lean`) | each step brings the start value next to the solution nearer by a factor of 19/20: bounds on the slope, convexity; the mean value theorem gives the bounds from derivatives |
| C88 | as C60 and C64; `Spec/Partial.lean` adds undefined results to the meaning of formulas | induction on `Partly`; the search for 1/x=c is followed from every start value |
| C89 | the search of `Model/Roots.lean` over doubles (`Binary64`), sides with error bounds by `Rounds`; `Spec/FloatNewton.lean` | every Newton step from a start value within 1/2 of the zero halves the distance up to rounding (`Proofs/FloatSearch`), so the loop stops near it (`Proofs/FloatFound`); the residual at each result from the stopping test |
| C90 | budget of `evalRec` as nesting depth; `Spec/Depth.lean` | the bounds of C24 made explicit (induction on the height and the rank); one level of `parse_inner` adds at most two levels of height |
| C91 | the functions that can reach `calculate_integral` once more with the printed lines (`Model/Trace.lean`); the text of a line (Rust's debug format) is not modelled | same results as the model without output by induction on the budget; silence by induction on trees; integrals and derivatives directly; equations in one unknown by induction on the steps of the search (`Spec/TraceEquation.lean` lists the points); the budget does not matter as for C24 |
| C92 | as C60; `Yields`, `nthD` in `Spec/Nested.lean` | sums and difference quotients commute (algebra); the mean value theorem once per derivative; the sum of `I` differentiated in its upper bound; binary64: differences of numbers of size at least 1 are multiples of 2^-52 |
| C93 | `parse` unchanged; `parts`, `Part.From` in `Spec/Provenance.lean` | induction over the recursion of the parser: the pieces passed on are infixes of the text, and their lengths add up to less than its length; transposing a matrix permutes its parts |
| C94 | the functions of `maths::calculus` with the context as they leave it (`Model/Borrowed.lean`) | case analysis over the exits; the first components agree with the model used by `eval` |
| C95 | binary64 evaluation of formulas without any bound on sizes; sizes and exact values in `Spec/Overflow.lean` | non-finite operands give non-finite results, so a finite result has finite operands all the way down; induction with (1+u)^n |
| C96 | the relation between a tree and the texts it can be written as (`Spec/Spelling.lean`), independent of the parser | strong induction over the calls of the parser, counting parentheses for the last characters; at most one digit-free text per tree by induction over the tree |
| C97 | evaluation with its budget; parts of an expression in `Spec/Strict.lean` | every node first runs its parts left to right (one lemma for all nodes), then induction over parts and over the budget |
| C98 | evaluation, the grammar, contexts; `Spec/StepByStep.lean`: writing `(d)` for a variable (`substEx`), direct parts (`Direct`) | a direct part depends on the values of its variables only; the replacement theorem of C79 for *variable* and *parenthesised part*; leaving out the variable is C25; the call unfolds as in C22 |
| C99 | evaluation; `Spec/Readings.lean`: the readings of an expression (`readings`), expressions with a choice at every place (`Offered`), counting `±` (`PlusMinus`) | forward by induction over the budget (values of the parts pair up with their readings), backward by induction over the expression (every reading of a part occurs in a reading of the whole); the quadratic formula from C60 and Mathlib's discriminant |
| C100 | evaluation, all operations on values; `Spec/Shapes.lean`: shapes, the shape of each operation (`opShape`), of an expression (`Shaped`; a call is checked with the shapes of its arguments, so derivations exist only without recursion), the failures that depend on numbers | type preservation and progress by induction over the budget, from the shape lemmas of the operations; a derivation rules out a function that calls itself; the converse by induction over the budget, from the error cases of each operation |
| C101 | the parser and the evaluation for two feature sets at once; `Spec/Features.lean`: transposing all matrix literals of a tree (`flipped`), trees without matrices (`MatrixFree`) and without calculus (`Arithmetical`) | the step of the parser commutes with transposing the results of its recursive calls (vectors it returns are never empty), then induction over the budget; the places where `PREC` occurs, one lemma each |
| C102 | all operations on values; `Spec/Ragged.lean`: the table of panics (`Panics`) by operation and shape | loops that only look entries up panic exactly if one look-up does (for `mapM`, `foldlM`); an invariant for the powers; the existing formulas for det and inv of square matrices |
| C103 | evaluation of texts, `maths`, `Exact`/`ExactReal` numbers; `Spec/Agree.lean`: the same finite numbers in the same shape | composition of C30-C37, C48 with identities of Mathlib's matrices; counterexamples by kernel computation |
| C104 | `evalRec`, all of `maths`, derivatives; `Spec/Certain.lean`: the part of the shape rules of C100 in which nothing depends on the numbers | induction on the derivation, with a budget that exists for every part; equal numbers of values at both points of a derivative by C82 |
| C105 | `evalRec`, `solve`, `quickEval`, calculus, the root search; `Spec/Reported.lean`: parts of an expression at any depth, and for each error what it claims | induction on the budget with two invariants: the scope keeps all variables of the first context, and the expression at hand (operations aside) is a part of the first expression or of a function; the internal errors are caught by the inner loop |
| C106 | the search of `Verif/Model/Eval.lean` with the sides of equations exchanged; laws about opposite numbers `Mirror` (`Verif/Num/Mirror.lean`), proved for exact reals, fractions and binary64 | simulation with the same budget: residuals are opposite up to the sign of zero, so their norms are equal and Newton's steps are equal or both not finite (`Verif/Proofs/Mirror.lean`); uses C105 (evaluation never reports the errors that the search catches). Anywhere in an expression by C107. Not for several unknowns: elimination with infinities depends on the sign of zero |
| C107 | `eval` unchanged; `Replaced` of C79 (`Spec/Replace.lean`) | the proof of C79 with failures in the place of timeouts (`Verif/Proofs/ReplaceResults.lean`): a failing part fails the whole, since by C105 evaluation never reports the three errors that the search catches |
| C108 | the search of `Verif/Model/Eval.lean` with two combinations of one equation each | the check of the copy repeats the test of the search in an equal context, so every step is equal; induction on steps and starts; the second combination is only tried if the first finds nothing, and then finds nothing |
| C109 | the same rewriting rules on written expressions (`Verif/Spec/RewriteText.lean`) and on trees (`Verif/Spec/Rewrite.lean`), closed under steps, directions and places | each rule keeps the results within three more steps of the budget; numbers written in another way have the same value in every context; C107 carries that to any place, C106 and C108 add the rules for equations, C09 the texts; laws of numbers needed: commutativity and (-1)*((-1)*a)=a, proved for exact arithmetic and binary64 |
| C110 | rising and falling expressions and contexts in order by `Verif/Spec/Monotone.lean`; `quickEval`, `evalRec`, `calculateIntegral` over binary64 (`Binary64`, `Tens`) | rounding is monotone, so every operation keeps or turns the order, infinities and NaN included; induction on the form of the expression; for integrals both runs have the same slices, induction on their number |
| C111 | `quickEval` of the seven texts over exact real numbers; the values are compared as real numbers (`NotMore`, `Agree` of `Spec/Agree.lean`) | parsing by C09, the operations by C30, C32 and C33; Cauchy-Schwarz for sums, the others from it |
| C112 | `quickEval` of the ten texts over exact numbers, compared entry by entry (`Agree`) | parsing by C09, composition of C30, C31, C32 and C35 |
