{"id": "C01", "title": "Context variables behave like a map", "statement": "After any sequence of add_var / remove_var / add_fun / remove_fun calls, looking a variable name up in the context yields exactly the value last added under that name (nothing if it was never added or was removed afterwards); other names are untouched and a name is never stored twice if it was not duplicated initially.", "quantifier": "every initial context, every finite history of context operations, every name", "why_tests_cant": "The history is unbounded; a test checks one sequence of calls.", "anchors": ["src/basetypes.rs:Context::add_var", "src/basetypes.rs:Context::remove_var", "src/parser.rs:eval_rec (AST::Variable)"]}
{"id": "C02", "title": "Context functions behave like a map, independently of the variables", "statement": "After any sequence of context operations, looking a function name up yields exactly the function last added under that name; variable operations never change the functions and function operations never change the variables.", "quantifier": "every initial context, every finite history of context operations, every name", "why_tests_cant": "The history is unbounded; a test checks one sequence of calls.", "anchors": ["src/basetypes.rs:Context::add_fun", "src/basetypes.rs:Context::remove_fun", "src/parser.rs:eval_rec (AST::Function)"]}
{"id": "C03", "title": "Combining multi-valued operands enumerates every combination exactly once, in order", "statement": "Combining n lists of alternatives yields exactly the tuples that pick one element of each list, each position-choice exactly once, ordered with the last position varying fastest; the count is the product of the list lengths and is zero as soon as one list is empty.", "quantifier": "every list of lists of alternatives of any length over any element type", "why_tests_cant": "Count and order must hold for every number and size of operands.", "anchors": ["src/helpers.rs:cart_prod"]}
{"id": "C04", "title": "Argument lists are split at top-level commas only", "statement": "Splitting an argument string yields pieces that re-joined with ',' give back the string, and the cuts are exactly the commas outside every (), [] and {} group; there is always one more piece than cuts.", "quantifier": "every character string", "why_tests_cant": "Nesting depth and length are unbounded.", "anchors": ["src/helpers.rs:get_args"]}
{"id": "C05", "title": "Parsing terminates on every input", "statement": "parse returns (a result or an error) for every string: each recursive descent is on a strictly shorter string.", "quantifier": "every string", "why_tests_cant": "Termination cannot be observed by running finitely many inputs.", "anchors": ["src/parser.rs:parse", "src/parser.rs:parse_inner", "src/parser.rs:parse_value"]}
{"id": "C06", "title": "Parsing never panics on ASCII text", "statement": "parse returns Ok or Err for every ASCII string and for every string of any characters without [ and (; it never panics on these. (Beyond that it can panic, e.g. on \"[ä]\" and \"äöü(x)\", because byte offsets are used as character offsets.)", "quantifier": "every ASCII string, every string without [ and (; witnesses outside", "why_tests_cant": "The panicking inputs mix byte and character lengths; sampling ASCII expressions never reaches them, and absence for all ASCII strings is not testable.", "anchors": ["src/parser.rs:parse_value", "src/parser.rs:parse_inner", "src/parser.rs:is_valid_var_name"]}
{"id": "C07", "title": "Blanks are insignificant", "statement": "Two strings that are equal after deleting all spaces (and trimming outer whitespace) parse to the same outcome, including the same error.", "quantifier": "every pair of strings that agree up to spaces", "why_tests_cant": "Blanks can be inserted at any number of places.", "anchors": ["src/parser.rs:parse"]}
{"id": "C08", "title": "Unbalanced parentheses are always rejected", "statement": "A non-blank expression with more '(' than ')' is rejected with UnmatchedOpenDelimiter and one with more ')' than '(' with UnmatchedCloseDelimiter; every accepted expression contains as many '(' as ')'; a blank expression is rejected with EmptyExpr.", "quantifier": "every string", "why_tests_cant": "Quantifies over all strings and nestings.", "anchors": ["src/parser.rs:parse_inner"]}
{"id": "C09", "title": "Operator precedence and associativity", "statement": "Writing out any expression tree of numbers, variables, parentheses, calls, vectors, lists and the operators + - & * / # juxtaposition ^ ? and unary minus, with the library's precedence order and associativity (left for - and *, right for the others), and parsing the text gives back exactly that tree.", "quantifier": "every expression tree of any size and depth that respects the precedence discipline", "why_tests_cant": "The number of expressions is infinite; precedence bugs hide in combinations.", "anchors": ["src/parser.rs:parse_inner"]}
{"id": "C10", "title": "Division chains group to the right", "statement": "a/b/c is parsed as a/(b/c) for all operands, not as (a/b)/c as in ordinary notation: 8/4/2 evaluates to 4.", "quantifier": "all operands a, b, c", "why_tests_cant": "The claim is about all operand expressions; the existing tests contain no division chain.", "anchors": ["src/parser.rs:parse_inner (highest_op, ops_in_expr.reverse)"]}
{"id": "C11", "title": "Parsed trees are well formed", "statement": "Every tree returned by parse has only non-empty vectors, non-empty rectangular matrices, non-empty lists and non-empty call argument lists, and every variable and function name in it passes is_valid_var_name.", "quantifier": "every string that parses", "why_tests_cant": "An invariant of the output for all inputs.", "anchors": ["src/parser.rs:parse_value", "src/parser.rs:parse_inner", "src/parser.rs:is_valid_var_name"]}
{"id": "C12", "title": "Orientation of matrix literals", "statement": "Parsing a matrix literal [[..],[..],..] yields the matrix whose columns are the inner lists (whose rows are the inner lists with the row-major feature), for any dimensions; inner lists of different length, and inner lists mixed with other entries, are rejected with NotRectMatrix; a bracket that contains a matrix literal is rejected.", "quantifier": "every matrix literal of any dimension, both settings of the row-major feature", "why_tests_cant": "All dimensions and entries.", "anchors": ["src/parser.rs:parse_value"]}
{"id": "C13", "title": "Argument counts of built-in operations are enforced", "statement": "root( , ) with other than 2 arguments, D(...) with other than 3 and I(...) with other than 4 are rejected with WrongNumberOfArgs; if accepted, the arguments are the parses of the comma-separated pieces in order.", "quantifier": "every argument string", "why_tests_cant": "Unbounded argument strings with nested commas.", "anchors": ["src/parser.rs:parse_inner", "src/helpers.rs:get_args"]}
{"id": "C14", "title": "Numeric literals denote the number they spell", "statement": "Every decimal numeral (digits, optionally a point and further digits) parses to the scalar with exactly that decimal value (before float rounding). A text is read as a number exactly if it consists of digits, of digits around a point, or of digits followed by '.e' or '.E' and digits (a power of ten): 1.e5 is a number, 1e5 is not.", "quantifier": "every string", "why_tests_cant": "Infinitely many numerals.", "anchors": ["src/parser.rs:parse_value"]}
{"id": "C15", "title": "How equation entries are read", "statement": "In eq(...), an entry with one '=' becomes an equation between its two sides (the textually longer one first), in the given order, and the entries without '=' become the search variables in order. An entry with more than one '=' is not rejected (although TooManyEquals exists for it): everything from the second '=' on is ignored, whatever it is.", "quantifier": "every list of entries", "why_tests_cant": "Quantifies over all entries; the error variant is never constructed.", "anchors": ["src/parser.rs:parse_inner (AdvancedOpType::Equation)", "src/errors.rs:ParserError::TooManyEquals"]}
{"id": "C16", "title": "Variable-name validity", "statement": "is_valid_var_name accepts exactly the names that start with a letter or backslash and contain, outside of {...}, no operator character, no '=' and no numeric character that is not directly preceded by '_'. (It panics on the empty string.)", "quantifier": "every string", "why_tests_cant": "All strings.", "anchors": ["src/parser.rs:is_valid_var_name"]}
{"id": "C17", "title": "A missing left operand counts as zero", "statement": "An expression that starts with a binary operator other than - is not rejected: for every operand e, \"*e\", \"/e\", \"+e\" .. are parsed as 0*e, 0/e, 0+e .. (so \"*5\" evaluates to 0).", "quantifier": "every expression that starts with an operator", "why_tests_cant": "All continuations.", "anchors": ["src/parser.rs:parse_inner (left_s.is_empty())"]}
{"id": "C18", "title": "Evaluation has one outcome", "statement": "Evaluating the same tree in the same context always produces the same outcome: giving the evaluation more steps never changes a finished outcome.", "quantifier": "every tree, context and step budget", "why_tests_cant": "Quantifies over all programs and budgets.", "anchors": ["src/parser.rs:eval", "src/parser.rs:eval_rec"]}
{"id": "C19", "title": "Binary operations combine all values of both operands in order", "statement": "Evaluating l op r yields op applied to each (left value, right value) pair, left value varying slowest, so the number of results is |l|*|r| (twice that for &: sum then difference); if any pair fails the whole evaluation fails with the first failing pair's error.", "quantifier": "every pair of operand trees, context and operator", "why_tests_cant": "Any number of alternatives on both sides.", "anchors": ["src/parser.rs:eval_rec (SimpleOperation)"]}
{"id": "C20", "title": "Vectors and matrices of multi-valued entries enumerate all combinations", "statement": "Evaluating a vector (matrix) literal yields one vector (matrix) per combination of entry values, first entry varying slowest; a non-scalar entry is rejected with NonScalarInVector (NonScalarInMatrix).", "quantifier": "every vector/matrix tree and context", "why_tests_cant": "Any dimension, any number of alternatives.", "anchors": ["src/parser.rs:eval_rec (AST::Vector, AST::Matrix)", "src/helpers.rs:cart_prod"]}
{"id": "C21", "title": "Variables resolve to the context, unknown ones fail", "statement": "Evaluating a variable (also one made with AST::from_variable_name) yields all values stored under that name (the first entry with that name, also in a context made with Context::new) and fails with NoVariable(name) exactly if there is none.", "quantifier": "every name and context", "why_tests_cant": "All contexts.", "anchors": ["src/parser.rs:eval_rec (AST::Variable)"]}
{"id": "C22", "title": "Calling a user function", "statement": "f(a1..an) evaluates the body of f once per combination of argument values with the parameters bound to these values (shadowing context variables of the same name, all other variables visible) and concatenates the results; functions made with Function::new bind their parameters in the given order, and of several functions of one name the first counts; an unknown function gives NoFunction, a wrong argument count WrongNumberOfArgs((expected, given)).", "quantifier": "every call, function and context", "why_tests_cant": "All functions, contexts and argument multiplicities.", "anchors": ["src/parser.rs:eval_rec (AST::Function)"]}
{"id": "C23", "title": "Directly recursive functions are rejected, other recursion loops", "statement": "A function whose body calls itself (outside of an integrand, a differentiated expression or an equation) never yields a value, and fails with RecursiveFunction when the body is that call; in every context. More generally, functions that need each other's values in a circle (through arguments, operators, D, bounds or a first equation) never yield a value. Only the direct call is caught: with f(x)=g(x), g(x)=f(x), and with f(x)=D(f(x),x,x), evaluating f(x) never returns; with f(x)=eq(f(x)=y,y) it ends with SearchVarsInVars.", "quantifier": "every context of functions", "why_tests_cant": "Non-termination is not observable by a test; all call graphs.", "anchors": ["src/parser.rs:eval_rec (last_fn)"]}
{"id": "C24", "title": "Evaluation terminates when functions are not cyclic", "statement": "If the functions of the context can be ranked so that each body only calls lower-ranked functions, evaluating any tree without integrals finishes; with exact arithmetic integrals finish too.", "quantifier": "every tree and every ranked context", "why_tests_cant": "Termination for all inputs.", "anchors": ["src/parser.rs:eval_rec", "src/roots.rs:RootFinder::find_roots", "src/maths/calculus.rs"]}
{"id": "C25", "title": "Evaluation depends only on the bindings it can see", "statement": "Two contexts (without duplicate names) that give every name the same variable values and the same function evaluate every tree to the same outcome, regardless of the order in which things were added; adding a variable under a name that neither the tree nor any function mentions (other than as its own parameter) changes nothing.", "quantifier": "every tree and pair of contexts", "why_tests_cant": "All trees and contexts.", "anchors": ["src/parser.rs:eval_rec", "src/basetypes.rs:Context"]}
{"id": "C26", "title": "Evaluation without equations never panics", "statement": "Evaluating a well-formed tree without eq(...) in a context whose values are well formed (non-empty rectangular) and whose functions contain no eq(...) never panics, whatever the numbers are (NaN and infinities included); so quick_eval never panics on a text that parses to such a tree. With eq(...) it can panic: eq(x=1, [1,2]=[3,4], x).", "quantifier": "every well-formed tree and context", "why_tests_cant": "Absence of panics for all inputs.", "anchors": ["src/parser.rs:eval_rec", "src/maths.rs", "src/roots.rs"]}
{"id": "C27", "title": "Results are well formed", "statement": "Every value returned by evaluating a well-formed eq-free tree in a well-formed context is well formed: matrices are non-empty and rectangular, vectors non-empty.", "quantifier": "every well-formed tree and context", "why_tests_cant": "Invariant for all inputs.", "anchors": ["src/parser.rs:eval_rec", "src/maths.rs", "src/maths/*.rs"]}
{"id": "C28", "title": "Turning a value into a tree and evaluating it is the identity", "statement": "eval(AST::from_value(v)) yields exactly [v] in every context, for every value v.", "quantifier": "every value and context", "why_tests_cant": "All values.", "anchors": ["src/basetypes.rs:AST::from_value", "src/parser.rs:eval"]}
{"id": "C29", "title": "quick_eval is parse followed by eval", "statement": "quick_eval fails with the parser's error if parsing fails, otherwise with the evaluator's error if evaluation fails, otherwise it returns the evaluator's values.", "quantifier": "every string and context", "why_tests_cant": "All inputs.", "anchors": ["src/lib.rs:quick_eval", "src/errors.rs:QuickEvalError"]}
{"id": "C30", "title": "Addition, subtraction and negation", "statement": "Values can be added/subtracted exactly if they have the same kind and dimensions, otherwise an error is returned; the result has the same dimensions and is the entrywise sum/difference; in exact arithmetic addition is commutative and associative, a-b = a+(-b), a-a = 0 and negation is an involution.", "quantifier": "all values of any dimension", "why_tests_cant": "All dimensions and entries.", "anchors": ["src/maths.rs:add,sub,neg", "src/maths/add_sub.rs"]}
{"id": "C31", "title": "Matrix products", "statement": "The product of an n*k and a k*m matrix is the mathematical matrix product, of an n*k matrix and a k-vector the matrix-vector product; incompatible dimensions and vector*matrix are errors; in exact arithmetic the product is associative and compatible with applying to vectors.", "quantifier": "all matrices and vectors of any dimension", "why_tests_cant": "All dimensions and entries.", "anchors": ["src/maths/mult_div.rs:mmmult,mvmult", "src/maths.rs:mult"]}
{"id": "C32", "title": "Scaling and division", "statement": "Scalar*vector and vector*scalar (and matrices likewise) give the same entrywise scaled value; dividing a vector or matrix by a non-zero scalar divides every entry; dividing by a vector or matrix (other than vector/vector of the same length) is an error.", "quantifier": "all values of any dimension", "why_tests_cant": "All dimensions and entries.", "anchors": ["src/maths/mult_div.rs:svmult,smmult,vsdiv,msdiv,vvdiv", "src/maths.rs:mult,div"]}
{"id": "C33", "title": "Dot product and length", "statement": "vector*vector is the sum of the products of corresponding entries, symmetric in its arguments, an error for different lengths; abs of a vector is the square root of its dot product with itself; abs of a scalar is its absolute value.", "quantifier": "all vectors", "why_tests_cant": "All dimensions and entries.", "anchors": ["src/maths/mult_div.rs:vvmult", "src/maths.rs:abs"]}
{"id": "C34", "title": "Cross product", "statement": "a#b for equally long vectors of length at most 3 (padded with zeros) is the cross product: orthogonal to both operands, anti-commutative; longer or unequal vectors are an error.", "quantifier": "all vectors", "why_tests_cant": "All entries.", "anchors": ["src/maths/cross_pow.rs:vcross"]}
{"id": "C35", "title": "Determinant", "statement": "det of a square matrix of any size is its mathematical determinant (hence multiplicative and invariant under transposition, so independent of the row/column-major setting); any other matrix shape, scalars and vectors are errors.", "quantifier": "all square matrices of any size", "why_tests_cant": "All sizes; Laplace expansion is recursive.", "anchors": ["src/maths/special.rs:det_m", "src/maths.rs:det"]}
{"id": "C36", "title": "Matrix inverse is an inverse", "statement": "If inv(A) returns a matrix of finite numbers, it is the two-sided inverse of A; it is an error exactly if A is singular or not a square matrix; and all entries of the result are finite exactly if every leading principal minor of A is non-zero (exact arithmetic). There is no pivoting, so some invertible matrices are not inverted: [[0,1],[1,0]] yields NaN entries.", "quantifier": "all matrices of any size", "why_tests_cant": "All sizes; the failing cases are measure-zero.", "anchors": ["src/maths/special.rs:inv_m"]}
{"id": "C37", "title": "Matrix powers", "statement": "A^n for a square matrix and a natural number n<2^31 is the n-fold product of A (identity for n=0); non-integer exponents, and positive powers of non-square matrices, are errors. A negative integer exponent gives the identity matrix, not an inverse power and not an error (exact arithmetic).", "quantifier": "all square matrices, all exponents", "why_tests_cant": "All sizes and exponents.", "anchors": ["src/maths/cross_pow.rs:mspow"]}
{"id": "C38", "title": "Indexing into vectors", "statement": "v?i returns entry i (from 0) exactly when i is a non-negative integer below the length of v, and an error for every other index and operand kind.", "quantifier": "all non-empty vectors and all indices", "why_tests_cant": "All lengths and indices.", "anchors": ["src/maths.rs:get"]}
{"id": "C39", "title": "Rounding", "statement": "For p < 2^31, round(p) keeps the shape of a value, changes each entry by at most half a unit of the p-th decimal, is monotone and idempotent (exact arithmetic). Only the lowest 32 bits of p count, read as a signed number: round(p + 2^32) is round(p), and round(2^32 - k) rounds to a nearest multiple of 10^k.", "quantifier": "all values, all precisions", "why_tests_cant": "All values.", "anchors": ["src/basetypes.rs:Value::round", "src/basetypes.rs:Values::round"]}
{"id": "C40", "title": "Kind errors are total", "statement": "For each operation the set of operand kinds (scalar, vector, matrix) it accepts is fixed; every other combination is a MathError, never a panic and never a value.", "quantifier": "all operations, all operands", "why_tests_cant": "All operands.", "anchors": ["src/maths.rs"]}
{"id": "C41", "title": "Definite integrals are the Riemann sum of the integrand", "statement": "I(f, x, a, b) for scalars a<b is the sum of f at 10^(PREC-3) equidistant points, times the step; in particular exact for constants. (The sample points are a-dx/2, a+dx/2, ..: the first lies outside the interval, so for f(x)=x the result is off by dx*(b-a).)", "quantifier": "all integrands, all bounds a<b", "why_tests_cant": "All integrands and bounds.", "anchors": ["src/maths/calculus.rs:calculate_integral"]}
{"id": "C42", "title": "Swapping the bounds of an integral does not negate it", "statement": "For scalar bounds I(f, x, b, a) has exactly the same outcome as I(f, x, a, b) (exact arithmetic); so I(1, x, 1, 0) is 1 and not -1.", "quantifier": "all integrands and bounds", "why_tests_cant": "All integrands and bounds; the tests only integrate upwards.", "anchors": ["src/maths/calculus.rs:calculate_integral"]}
{"id": "C43", "title": "When integration terminates", "statement": "In exact arithmetic the integration loop makes exactly 10^(PREC-3) steps for finite bounds a<b and at most that many for all bounds, so integrals terminate whenever their parts do. With rounding it loops forever whenever a<b but a+dx rounds to a; this happens with doubles for I(1, x, 10^16, 10^16+2).", "quantifier": "all bounds", "why_tests_cant": "Non-termination is not observable by a test.", "anchors": ["src/maths/calculus.rs:calculate_integral (while b < ub)"]}
{"id": "C44", "title": "Derivatives are forward difference quotients", "statement": "D(f, x, a) for a scalar a yields (f(a+h)-f(a))/h with h=10^-PREC for each value of f, pairing the i-th values, an error if the numbers of values differ; exact for affine f, off by exactly h for x^2 (exact arithmetic); the context passed by the caller is unchanged and x is bound only inside f.", "quantifier": "all expressions and points", "why_tests_cant": "All expressions and points.", "anchors": ["src/maths/calculus.rs:calculate_derivative"]}
{"id": "C45", "title": "Every reported root satisfies all equations", "statement": "For each solution returned by eq(...) (or solve / RootFinder), substituting it for the search variables makes the Euclidean norm of the residuals of the equations less than 10^-PREC, for the equations solved and, in an over-determined system, for all remaining ones too.", "quantifier": "all systems of equations and contexts", "why_tests_cant": "All equations.", "anchors": ["src/roots.rs:newton", "src/roots.rs:RootFinder::find_roots", "src/solver.rs:solve"]}
{"id": "C46", "title": "Solutions are distinct, finite and at most ten", "statement": "Solutions returned by eq are scalars (one search variable) or vectors with one entry per search variable in the given order, contain no NaN or infinity, are pairwise different after rounding to PREC-2 decimals, and there are at most ten.", "quantifier": "all systems of equations and contexts", "why_tests_cant": "All equations.", "anchors": ["src/roots.rs:clean_results", "src/roots.rs:RootFinder::find_roots"]}
{"id": "C47", "title": "Ill-posed equation requests are rejected", "statement": "eq with no equation gives NothingToDoEq, with a search variable that already exists in the context SearchVarsInVars, with more search variables than equations UnderdeterminedSystem, with a vector/matrix valued first equation VectorInEq/MatrixInEq.", "quantifier": "all requests", "why_tests_cant": "All requests.", "anchors": ["src/roots.rs:RootFinder::new"]}
{"id": "C48", "title": "Which linear systems are solved", "statement": "If the elimination returns finite numbers, they solve the linear system; it does so exactly if every leading principal minor of the coefficients is non-zero; InfiniteSolutions is reported exactly if some equation is a linear combination, right-hand side included, of the first equations, whose leading minors are non-zero - so only for singular systems, and never for a contradiction (exact arithmetic). eq(...) on such a system reports exactly one solution, the solution of the system, if no start value (j,..,j) with |j|<=1000 is an approximate but not exact solution. There is no pivoting: for y=2, x=1 the elimination yields NaN.", "quantifier": "all square systems of any size", "why_tests_cant": "All sizes and coefficients.", "anchors": ["src/roots.rs:gauss_algorithm"]}
{"id": "C49", "title": "Over-determined systems try every choice of equations", "statement": "With m equations for k<m variables, the sub-systems tried are exactly the k-element subsets of the equations, each once, in lexicographic order (m choose k many).", "quantifier": "all m, k", "why_tests_cant": "All sizes.", "anchors": ["src/roots.rs:generate_combinations"]}
{"id": "C50", "title": "solve and eq agree", "statement": "solve(equations, context, vars) returns the same as evaluating the corresponding eq(...) tree.", "quantifier": "all equations, contexts, variables", "why_tests_cant": "All inputs.", "anchors": ["src/solver.rs:solve", "src/parser.rs:eval_rec (Equation)"]}
{"id": "C51", "title": "Printed values can be read back", "statement": "Parsing and evaluating Value::as_string of a finite scalar or non-empty vector gives the value back, in every context; so does a rectangular matrix with the row-major feature. With the default column-major parser a matrix comes back transposed, hence unchanged exactly if it is symmetric. A non-empty Values printed by as_string ({a, b}) comes back as the same values in order; the empty one ({}) is rejected.", "quantifier": "all finite values of any dimension", "why_tests_cant": "All values.", "anchors": ["src/basetypes.rs:Value::as_string", "src/parser.rs:parse_value"]}
{"id": "C52", "title": "LaTeX output is well bracketed", "statement": "as_latex of any value, result, tree, function or variable (with balanced names) is balanced: braces, \\left/\\right pairs and \\begin/\\end environments nest properly. The commands are not always those meant: a&b prints \\pmb for \\pm b.", "quantifier": "all values and trees", "why_tests_cant": "All trees of any depth.", "anchors": ["src/basetypes.rs:Value::latex_print", "src/basetypes.rs:AST::latex_print", "src/basetypes.rs:Values::as_latex"]}
{"id": "C53", "title": "LaTeX matrices have the matrix's layout", "statement": "as_latex of a vector has one \\\\-separated entry per element, of a matrix one \\\\-terminated line per row with &-separated entries, in order.", "quantifier": "all vectors and matrices", "why_tests_cant": "All dimensions.", "anchors": ["src/basetypes.rs:Value::latex_print"]}
{"id": "C54", "title": "'No solutions' is printed exactly for empty results", "statement": "Values::as_latex is 'No solutions' for an empty result, the bare value for one value, and the {..; ..} set of all values in order otherwise; as_latex_at_var prefixes the variable (pi as \\pi) and the aligner.", "quantifier": "all results", "why_tests_cant": "All lengths.", "anchors": ["src/basetypes.rs:Values::as_latex,as_latex_at_var"]}
{"id": "C55", "title": "Steps render consistently", "statement": "as_latex_with_tag(n) is as_latex plus the tag and label n; as_latex of a calculation is as_latex_inline plus one '&' before the first '=' of its own, and as_latex_inline of a calculation adds no '&'. as_latex_inline of a function declaration always contains an '&', against its documentation.", "quantifier": "all steps and numbers", "why_tests_cant": "All steps.", "anchors": ["src/latex.rs:Step::as_latex_with_tag,as_latex,as_latex_inline"]}
{"id": "C56", "title": "History export numbers the steps consecutively", "statement": "export_history(history, Tex) is the preamble followed by the steps' tagged LaTeX with numbers 1..n in order and the closing lines.", "quantifier": "all histories", "why_tests_cant": "All lengths.", "anchors": ["src/latex.rs:export_history"]}
{"id": "C57", "title": "Unicode pretty printing is aligned", "statement": "All lines of as_unicode of a non-empty vector or rectangular matrix have the same width in characters, there is one line per row, and they contain the elements in order. With as_unicode_at_var this holds exactly if there is one line or the name as printed has as many bytes as characters: so for ASCII names, but never for names that are replaced by a Greek letter. An empty vector panics. The name stands on the middle line; the lines carry the bracket pieces of their row. A scalar is one line. The Greek names are replaced by their letters, except \\pi, \\chi and \\Chi; every other name is printed as it is.", "quantifier": "all vectors, matrices and names", "why_tests_cant": "All dimensions and names.", "anchors": ["src/basetypes.rs:Value::pretty_print", "src/helpers.rs:center_in_string"]}
{"id": "C58", "title": "Centering", "statement": "center_in_string(f, n) surrounds f by spaces to total length n, left padding equal to or one less than right padding; strings longer than n are unchanged.", "quantifier": "all strings and widths", "why_tests_cant": "All lengths.", "anchors": ["src/helpers.rs:center_in_string"]}
{"id": "C59", "title": "Which printed trees keep their meaning when read back", "statement": "For trees of numbers, names, parentheses, calls, vectors, matrices, lists, + - * / ^, juxtaposition, unary minus, built-in functions except abs, root, I and D, parsing AST::as_string gives the tree back, with numbers rounded to PREC-2 decimals, exponents in parentheses and (column-major) matrices transposed; so without rounding and transposition it evaluates to the same outcome in every context. Not so for the rest: eq loses its search variables (its equations come back, each with the longer text first), #, ? and & are read back as something else, abs, a power before a name and tiny numbers are not readable.", "quantifier": "all parsed trees", "why_tests_cant": "All trees.", "anchors": ["src/basetypes.rs:AST::as_string"]}
{"id": "C60", "title": "Formulas evaluate to their mathematical value", "statement": "quick_eval of the text of a formula returns, in order, the numbers, vectors and matrices the formula stands for over the real numbers: numerals, variables, parentheses, lists, vectors, matrices (single-valued entries), + - & * / # ^ ? and juxtaposition, unary minus, the built-in functions inside their domains, root, calls of user-defined functions, difference quotients D, Riemann sums I, and eq with one equation for one new name whose sides are everywhere defined (C64). In the default context pi and e are the two constants and nothing else is defined.", "quantifier": "all well-formed formulas, eq only with one equation, all contexts, exact arithmetic and exact elementary functions", "why_tests_cant": "Arbitrarily nested formulas and user-defined functions; tests evaluate fixed ones.", "anchors": ["src/lib.rs:quick_eval", "src/parser.rs:parse,eval", "src/maths.rs", "src/maths/calculus.rs", "src/basetypes.rs:Context::default"]}
{"id": "C61", "title": "Error reports tell what happened", "statement": "Converting an error into a more general error type keeps its text. The texts of different errors of parse, eval and quick_eval are different (name, expected and given number of arguments included; only the text of a mathematical error is free). The text for an unknown name and for a wrong number of arguments contains exactly that name and those numbers, and each kind of error has its own text.", "quantifier": "all errors, names and numbers", "why_tests_cant": "All names and numbers in the reports.", "anchors": ["src/errors.rs:ParserError,EvalError,QuickEvalError,MathLibError", "src/parser.rs:eval"]}
{"id": "C62", "title": "The LaTeX of a formula says what the formula says", "statement": "Reading the LaTeX of an unambiguous formula (plain names, no inv, no number in scientific notation, no empty matrix) as mathematics gives back its plain text; parsing that gives the tree again and evaluating it the same outcome in every context, so two such formulas with the same LaTeX have the same value. Not so for inv (inv(a+b) and a+inv(b) have the same LaTeX), the search variables of eq, and names written like an index. Likewise the LaTeX of values, of variables and of function definitions can be read back.", "quantifier": "all unambiguous formulas, all contexts", "why_tests_cant": "Arbitrarily nested formulas; tests look at a few.", "anchors": ["src/basetypes.rs:AST::as_latex"]}
{"id": "C63", "title": "Printed numbers", "statement": "A finite number that does not round to zero is printed (as_string and as_latex) in decimal notation, as a nearest number with PREC-2 decimals. Zero of either sign is printed as 0. A number other than zero that rounds to zero is printed exactly, in scientific notation (1e-7 in plain text, 1\\cdot 10^{-7} in LaTeX).", "quantifier": "all finite numbers", "why_tests_cant": "All magnitudes.", "anchors": ["src/basetypes.rs:Value::round_and_format", "src/basetypes.rs:Value::as_string,as_latex"]}
{"id": "C64", "title": "Solving one equation for one variable", "statement": "eq(l=r,x) with an unused name x returns what Newton's method with step 10^-PREC finds for the difference of the two sides from the start values -1000..999 (at most 1000 steps each): the different ones after rounding to PREC-2 decimals, in the order found, or the ten nearest to zero in ascending order. Nothing is returned if the sides always differ by at least 10^-PREC. A quadratic equation with two solutions in [-1000, 999] that are decimal numbers with PREC-2 decimals and not too close together returns exactly two values, in ascending order, which round to the solutions; with any two real solutions in this range, not too close together, each is returned, and there are at most four values, all of them near a solution. An equation with a double integer solution returns more than one value.", "quantifier": "all equations, names and contexts, exact arithmetic; all quadratic equations", "why_tests_cant": "Infinitely many equations, 2000 start values each.", "anchors": ["src/roots.rs:RootFinder::find_roots,newton,clean_results", "src/parser.rs:eval"]}
{"id": "C65", "title": "Values hold what was put into them", "statement": "A value is of exactly one kind (scalar, vector, matrix); the getters return its contents for this kind and nothing for the others. value! makes a scalar from one argument, a vector from one row of at least two, a matrix with these rows from at least two rows (so neither a vector with one entry nor a matrix with one row can be made with it, and ragged rows are accepted). A list of values keeps number and order. is_inf_or_nan is true exactly if some entry is infinite or NaN. If the numbers of the left value are finite, == holds exactly for the same kind, the same shape and equal numbers at the same places; a value with a NaN equals nothing. Evaluating the literal written for a vector or (transposed unless row-major) a matrix gives the value that value! gives.", "quantifier": "all values, all shapes", "why_tests_cant": "All lengths and shapes, all positions of an exceptional entry.", "anchors": ["src/basetypes.rs:value!,Value::get_scalar,get_vector,get_matrix,is_inf_or_nan,PartialEq", "src/basetypes.rs:Values,Variable::new"]}
{"id": "C66", "title": "Accuracy of derivatives and integrals", "statement": "D(e,x,a) is within L/2*10^-PREC of the derivative at a, if the derivative of e changes by at most L per unit between a and a+10^-PREC. I(e,x,a,b) with a<b is within L*(b-a)^2/10^(PREC-3) of the integral, if e changes by at most L per unit from half a step left of a up to b.", "quantifier": "all differentiable (Lipschitz) expressions, all points, exact arithmetic", "why_tests_cant": "All functions and all points; tests compare a few values with tolerances.", "anchors": ["src/maths/calculus.rs:calculate_derivative,calculate_integral", "src/parser.rs:eval"]}
{"id": "C67", "title": "Rounding errors of formulas", "statement": "With binary64 numbers, correctly rounded square roots and elementary functions of relative accuracy u, quick_eval of a formula succeeds with one result, whose numbers are within the bounds that textbook rounding error analysis derives (+ - * / are rounded to a nearest number, products and sums of vectors and matrices accumulate in order, vector/number multiplies by a rounded reciprocal, root(a,b) is a^(1/b), D is the difference quotient) of the numbers the formula means (C60). pi and e are accurate to u.", "quantifier": "all formulas of numerals, variables, vectors, matrices, + - * / ^ # ?, functions, calls, root and D for which the analysis yields bounds (no overflow, no division by a number that may be zero)", "why_tests_cant": "All formulas and all numbers; tests compare a few results with a tolerance.", "anchors": ["src/lib.rs:quick_eval", "src/parser.rs:eval", "src/maths.rs", "src/maths/calculus.rs:calculate_derivative"]}
{"id": "C68", "title": "Whole numbers are exact", "statement": "With binary64 numbers, formulas of whole numbers with + - *, juxtaposition, division without remainder, unary minus, abs, vectors, sums of vectors and dot products are computed without any rounding as long as no number on the way exceeds 2^53.", "quantifier": "all such formulas, all values of the variables", "why_tests_cant": "All formulas and all numbers up to 2^53.", "anchors": ["src/lib.rs:quick_eval", "src/maths.rs", "src/parser.rs:parse_value"]}
{"id": "C69", "title": "Derivatives far from zero are lost", "statement": "With binary64 numbers, D(e,x,a) is 0 for every expression e with finite results when |a| is at least 2^55*10^-PREC (3.6e8; with high-prec 3603), whatever the derivative: a+10^-PREC is rounded to a.", "quantifier": "all expressions, all points |a| >= 2^55*10^-PREC", "why_tests_cant": "All expressions and all points of this size.", "anchors": ["src/maths/calculus.rs:calculate_derivative", "src/parser.rs:eval"]}
{"id": "C70", "title": "Accuracy of derivatives in binary64", "statement": "With binary64 numbers, if e is computed to within E of a function f near a, and f differs from its tangent of slope d at a by at most C/2 times the square of the distance, then D(e,x,a) is within 3*E*10^PREC + C*10^-PREC + |d|*(|a|*10^PREC+5)/2^52 + 2^-1074 of d (for |a| <= 2^50*10^-PREC).", "quantifier": "all expressions with such a function, all points of this size", "why_tests_cant": "All functions and points; tests compare a few values with tolerances.", "anchors": ["src/maths/calculus.rs:calculate_derivative", "src/parser.rs:eval"]}
{"id": "C71", "title": "Accuracy of integrals in binary64", "statement": "With binary64 numbers, a < b, D=b-a, N=10^(PREC-3), |a|,|b| <= M <= 2^45*D/N: if e is computed to within E of a function f that is bounded by B and changes by at most L per unit around [a,b], then I(e,x,a,b) ends and its result is within D*(5/2*L*D/N + 9/8*B/N + 4/3*E) + (B+E)*(6*u*D + 20*M*N/2^52) + 2^-1074 of the integral. (The term 9/8*B/N is the extra slice that is added when the rounded steps stay below b: I(1,x,0,1) is 1.00001.)", "quantifier": "all expressions with such a function, all bounds of this size", "why_tests_cant": "All functions and bounds; tests compare a few values with tolerances.", "anchors": ["src/maths/calculus.rs:calculate_integral", "src/parser.rs:eval"]}
{"id": "C72", "title": "Operations on numbers are those of f64", "statement": "On numbers, sin cos tan arcsin arccos arctan sqrt ln + - * / ^ and juxtaposition return what the corresponding operation of f64 returns, also outside of its domain (sqrt(0-4) is NaN, not an error); root(a,b) is a^(1/b); & returns sum and difference. a-b is computed as a+b*(-1) and -a as (-1)*a, which in binary64 are the difference and the negated number for all numbers, zeros, infinities and NaN.", "quantifier": "all expressions, contexts, lists of values; all number types (the last sentence: binary64)", "why_tests_cant": "All numbers including the exceptional ones.", "anchors": ["src/maths.rs", "src/maths/add_sub.rs", "src/parser.rs:eval"]}
{"id": "C73", "title": "Integrals far from zero never return", "statement": "With binary64 numbers, I(e,x,a,b) with a<b never returns when |a|*10^(PREC-3) is at least 2^55*(b-a) (with the default precision: |a| >= 3.6e11*(b-a)), for every expression e whose values are numbers: a+dx is rounded to a. More generally it never returns when the points a, a+dx, (a+dx)+dx, ... never reach b.", "quantifier": "all expressions, all such bounds", "why_tests_cant": "Non-termination cannot be tested; all bounds of this size.", "anchors": ["src/maths/calculus.rs:calculate_integral", "src/parser.rs:eval"]}
{"id": "C74", "title": "Rounding to digits in binary64", "statement": "With binary64 numbers and 0 <= p <= 22, Value::round(p) of a number that is a little less than half a unit of the p-th digit away from a decimal number with p digits returns exactly the number that the literal of the decimal number stores. The result is within half a unit of the last digit plus |x|/2^51 plus 2^-50 units of the number; rounding twice changes nothing (|x|*10^p <= 2^50); larger numbers have no smaller roundings; numbers whose product with 10^p overflows are rounded to an infinity.", "quantifier": "all numbers, all p <= 22, all decimal numbers", "why_tests_cant": "All numbers and all digits; the surprising cases (1.005 -> 1, 2.675 -> 2.68, 1e300 -> inf) are not in the tests.", "anchors": ["src/basetypes.rs:Value::round"]}
{"id": "C75", "title": "Products and determinants in binary64", "statement": "With binary64 numbers, dot products, matrix-vector products and matrix products of n numbers have an error of at most (n+1)/2^52 of the sum of the absolute values of the products (plus n*2^-1074); determinants of n x n matrices whose entries are multiples of 2^-k, k*n <= 1074, have an error of at most n^2/2^52 of the product of the absolute row sums. For whole numbers they are exact as long as these bounds are below 1 (determinants: below 1/4, rows of zeros counted as 1), and inv refuses such a matrix for its determinant exactly if it is singular.", "quantifier": "all vectors and matrices of all sizes without overflow", "why_tests_cant": "All sizes and entries; tests compare a few small examples.", "anchors": ["src/maths/mult_div.rs", "src/maths/special.rs:det_m,inv_m", "src/maths.rs:mult,det,inv"]}
{"id": "C76", "title": "Solving systems of equations: the procedure", "statement": "With exact arithmetic and at least as many equations as variables, eq(l1=r1,...,x1,...) whose sides are functions of the variables returns exactly the points found by this procedure: for the first choice of as many equations as variables that gives something, Newton's method is started from (j,...,j), j=-1000..999, at most 1000 steps, with difference quotients of step 10^-PREC and elimination without exchanging rows; a point is accepted when the length of the vector of differences is below 10^-PREC and so it is for the equations not chosen; points that agree after rounding to PREC-2 digits are reported once; of more than ten the ten with the smallest absolute first coordinate, ascending. Which side of an equation comes first does not matter. Every returned point satisfies all equations to within 10^-PREC. A linear system with whole coefficients and non-zero leading minors returns exactly its solution. If the first of as many equations as variables does not contain the first variable, nothing but start points is found (eq(y=2,x=1,x,y) finds nothing); a redundant equation at the first start point ends the whole search with no result.", "quantifier": "all systems of all sizes of everywhere defined functions, all contexts, all precisions", "why_tests_cant": "All functions of several variables and all 2000 start points; tests solve a few systems.", "anchors": ["src/solver.rs", "src/roots.rs", "src/maths/calculus.rs", "src/maths/special.rs"]}
{"id": "C77", "title": "Images and documents", "statement": "svg_from_latex returns the image produced by MathJax with every occurrence of currentColor replaced by the line colour and nothing else changed; if the colour is not empty and shares no letter with currentColor (as #FFFFFF) none is left in the result. It fails only if MathJax fails. png_from_latex returns the image in a picture of exactly the requested height and the width that keeps the proportions, rounded up; it fails only if svg_from_latex does or the image cannot be read, and panics for height 0. export_history returns for Tex the UTF-8 text of the document and never fails, and hands the same document to tectonic for Pdf. Errors of the external programs are reported with their text in the variant for that program.", "quantifier": "every LaTeX text, colour, height and history and every behaviour of the external programs", "why_tests_cant": "Quantifies over all outputs of MathJax, usvg, tiny_skia and tectonic.", "anchors": ["src/latex.rs:svg_from_latex", "src/latex.rs:png_from_latex", "src/latex.rs:export_history", "src/errors.rs:LatexError"]}
{"id": "C78", "title": "Names do not matter", "statement": "Exchanging all variable names and all function names by others - in the expression and in the context, with the variables of derivatives and integrals, search variables and parameters - changes nothing but the names in error values; different names must stay different. In particular the variable of a derivative or integral, a search variable, or a parameter of a stored function can be called anything that is used nowhere else, provided that no stored function mentions the name (functions see the variables of their caller: with g(t)=x+t, D(g(1),x,3) has a value but D(g(1),y,3) fails with NoVariable(x)). The same holds for solve. The same holds for texts: exchanging the names in a text that is a written expression changes nothing else, with one reservation: as the library puts the textually longer side of an equation first, a text with equations needs new names as long as the old ones, unless every equation in it has one unknown: then the results stay the same with names of any length.", "quantifier": "all expressions, contexts, renamings and budgets", "why_tests_cant": "All programs and all renamings; a special treatment of some name anywhere would break it.", "anchors": ["src/parser.rs:eval", "src/maths/calculus.rs", "src/roots.rs", "src/solver.rs:solve", "src/basetypes.rs:Context"]}
{"id": "C79", "title": "Equals may be replaced by equals", "statement": "If two expressions evaluate alike in every context, any number of occurrences of one in an expression can be replaced by the other, also below integrals, derivatives and equations, and the evaluation ends with the same outcome (or in both cases not at all). In particular, when the variable x has a single value, writing this value for x changes nothing; defining x as v and using it is the same as writing v in its place, if no stored function refers to x.", "quantifier": "all expressions, contexts, values and positions", "why_tests_cant": "All expressions around the replaced part; evaluation has no memory and no dependence on the written form.", "anchors": ["src/parser.rs:eval", "src/maths/calculus.rs", "src/roots.rs", "src/basetypes.rs:AST::from_value"]}
{"id": "C80", "title": "Equations between formulas of numbers never panic", "statement": "Evaluating an expression never panics, and its values are well formed, if every eq(...) in it has at least one unknown and is between formulas of numbers: numbers, variables and the unknowns holding numbers, calls of functions that are formulas of numbers, operators and built-in functions, lists, derivatives, and integrals between comparable bounds. This holds whatever the numbers are (NaN and infinities included) and whether or not there are solutions. The conditions are needed: eq(x=1,[1,2]=[1,y],x,y) and eq(I(1,t,0,sqrt(0-4))=x,x) panic, the latter because an integral with a bound that is NaN has no value at all.", "quantifier": "all expressions, equations, contexts, numbers and step budgets", "why_tests_cant": "All numbers and all equations: the solver unwraps intermediate results in many places, for thousands of intermediate points.", "anchors": ["src/roots.rs", "src/maths/calculus.rs", "src/parser.rs:eval", "src/solver.rs"]}
{"id": "C81", "title": "Equations without unknowns are tests", "statement": "eq(l1=r1,...) without unknowns returns one solution, a vector without entries, if the length of the vector of differences of the two sides is below 10^-PREC, and nothing otherwise. For one equation in exact arithmetic: exactly if the sides differ by less than 10^-PREC. The returned vector is malformed: indexing it panics.", "quantifier": "all equations, all contexts and all values of the sides", "why_tests_cant": "All values of the sides and any number of equations; no test has an equation without unknowns.", "anchors": ["src/roots.rs:find_roots,newton,clean_results", "src/parser.rs:eval", "src/maths.rs:get"]}
{"id": "C82", "title": "How many values an expression has", "statement": "If an expression evaluates, it has as many values as its parts demand: vectors, matrices, operators and calls multiply the numbers of values of their parts, lists add them, plus-minus doubles; a derivative has as many as the expression for each point; an integral between different numbers as many as the integrand, between equal numbers one, and none if a bound is NaN; an equation at most ten. Without plus-minus, lists and equations, in a context of single values, there is at most one value.", "quantifier": "all expressions, contexts and numbers", "why_tests_cant": "All expressions: tests count the values of a few.", "anchors": ["src/parser.rs:eval", "src/maths/calculus.rs", "src/roots.rs:find_roots"]}
{"id": "C83", "title": "Laws of arithmetic that hold in binary64", "statement": "With binary64 numbers, also for zeros, infinities and NaN: l+r and r+l, and l*r and r*l, give the same values (several values in another order), also for vectors and for a number with a vector or matrix and for two vectors; a*1, a/1 and -(-a) are a; a-a is 0 for finite a and a/a is 1 for finite a other than 0; adding or subtracting the same number, multiplying and dividing by the same positive number never turn an order around, subtracting from the same number never keeps it, and -b < -a if a < b. Addition is not associative, multiplication does not distribute, and (a/b)*b need not be a.", "quantifier": "all binary64 numbers, all vectors and matrices, all expressions with numbers as values", "why_tests_cant": "All pairs and triples of doubles.", "anchors": ["src/maths.rs:add,mult,neg,div", "src/maths/add_sub.rs", "src/maths/mult_div.rs", "src/parser.rs:eval"]}
{"id": "C84", "title": "Rules of calculus", "statement": "With exact arithmetic: the integral of a sum is the sum of the integrals, a constant factor can be taken out, a larger integrand has a larger integral, and the integral lies between the bounds of the integrand times |b-a|; I(f(x+c),x,a,b) is I(f(x),x,a+c,b+c), and c*I(f(c*x),x,a,b) is I(f(x),x,c*a,c*b) for positive c. Integrals over adjacent intervals do not add up. The derivative of a sum is the sum of the derivatives, a factor can be taken out, and the derivative of a product is f'(a)*g(a+h)+f(a)*g'(a).", "quantifier": "all expressions, functions, points, bounds and contexts", "why_tests_cant": "All functions and bounds.", "anchors": ["src/maths/calculus.rs", "src/parser.rs:eval"]}
{"id": "C85", "title": "Equality of values, expressions and contexts", "statement": "Two expressions are == exactly if they have the same form and names and their numbers are ==; values compare as the expressions that stand for them; contexts are == exactly if they have the same entries in the same order. With binary64 numbers == is symmetric and transitive, and an expression is == to itself exactly if no NaN is written in it. For expressions read from text == is identity. It is not identity in general: 0 and -0 are == but 1/x differs; and contexts that differ only in the order of definitions are not == though every expression has the same values in both.", "quantifier": "all expressions, values, contexts and texts", "why_tests_cant": "All trees, all numbers (NaN and signed zeros included) and all texts.", "anchors": ["src/basetypes.rs:Value,Values,AST,Operation,AdvancedOperation,Variable,Function,Context (derive PartialEq)", "src/parser.rs:parse"]}
{"id": "C86", "title": "Serialized data is read back (feature serde)", "statement": "Serializing an expression, value, context or step and deserializing the result gives an object of the same form with the same names, in which every number is what the format makes of it; deserialization fails exactly if some number cannot be read. With a format that gives every number back, everything is read back as it was and different expressions are written differently. With JSON an expression comes back, unchanged, exactly if all its numbers are finite (NaN and infinities become null, which is no number).", "quantifier": "all expressions, values, contexts, steps and formats of numbers", "why_tests_cant": "All trees of any depth and all numbers.", "anchors": ["src/basetypes.rs:Value,Values,AST,SimpleOpType,Operation,AdvancedOperation,Variable,Function,Context (derive Serialize, Deserialize)", "src/latex.rs:Step", "Cargo.toml:serde"]}
{"id": "C87", "title": "Which solutions of an equation are found", "statement": "With exact arithmetic, eq(l=r,x) finds every solution s between -1000 and 999 near which the difference of the sides (taken one way or the other) rises and is well enough behaved: by m to 1.95m per unit within 1/2 of s, or by m to 20m and convex up to the next integer, or by m to 20m and concave from the integer before. It is among the results up to the last printed decimal, unless ten results are returned that are no larger. If the difference rises everywhere by at least 1/20 per unit, there are one or two results, all of them near s, and exactly one, which rounds to s, if s has no more than PREC-2 decimals.", "quantifier": "all equations, contexts, texts and solutions; all functions with such bounds on the slope", "why_tests_cant": "All functions and solutions: a test solves a few equations.", "anchors": ["src/roots.rs:find_roots,newton,RootFinder", "src/parser.rs:eval"]}
{"id": "C88", "title": "Formulas outside their domain", "statement": "With exact arithmetic, a formula of numbers that uses a root, logarithm, arcsine, arccosine, power or quotient outside its domain is evaluated without an error report and has one result, which is infinite or not a number; otherwise the result is the number the formula stands for. Undefined parts make sums, products, sines, ... undefined. Equations whose sides are not everywhere defined are solved by the same search, which gives up a start value when it meets an undefined point: which solutions are found is as in C87. Solutions may be missed: 1/x=c has the solution 1/c but eq(1/x=c,x) returns nothing for every c from 3 on.", "quantifier": "all formulas, contexts, user functions, equations and precisions", "why_tests_cant": "All formulas and all real arguments, inside and outside the domains.", "anchors": ["src/parser.rs:eval", "src/maths.rs", "src/roots.rs:find_roots,newton"]}
{"id": "C89", "title": "Solving equations in binary64", "statement": "In binary64 arithmetic, eq(l=r,x) with sides that are formulas of numbers always finishes without an error, with at most ten results, all finite. At each result the two sides differ by at most 1.02*10^-PREC and their rounding errors. Each zero s of l-r between -1000 and 999 around which l-r rises or falls by m to 1.9m per unit (within 1/2), with rounding errors small against m*10^-PREC and 10^-PREC and neither s nor m too large for the spacing of doubles, is among the results up to 1.03*10^-PREC/m + 1.2*10^-(PREC-2), unless ten results are returned that are no larger.", "quantifier": "all formulas, contexts of numbers, texts, zeros and error bounds; PREC up to 22; any library functions with relative accuracy up to 2^-20", "why_tests_cant": "Rounding differs in every step of every search; a test solves a few equations.", "anchors": ["src/roots.rs:find_roots,newton,RootFinder", "src/parser.rs:eval", "src/maths.rs"]}
{"id": "C90", "title": "Depth of the recursion", "statement": "Parsing a text of k characters gives a tree of height at most 2k; evaluating a tree of height d without integrals nests calls of the evaluation at most d + r*H + 4 deep, where H bounds the heights of the function bodies and r the rank of the functions called (2k + r*H + 4 from the text); with integrals the same where each loop takes at most N steps. There is no fixed limit: an expression in k pairs of parentheses takes more than k nested calls.", "quantifier": "all texts, trees and contexts of ranked functions", "why_tests_cant": "A bound for every input and the absence of any fixed bound cannot be sampled.", "anchors": ["src/parser.rs:parse_inner", "src/parser.rs:eval_rec", "src/roots.rs", "src/maths/calculus.rs"]}
{"id": "C91", "title": "What an evaluation prints", "statement": "Evaluating an expression writes to the standard output only if there is an integral in it or in a function of the context: quick_eval of a text without the letter I, with such functions, prints nothing, even if it fails. An integral prints one line for each pair of values of its bounds that are not equal, nothing for equal ones: the sums which, multiplied with the width of a slice, are its result, after everything its bounds and its integrand print. A derivative prints what its expression prints at the point and then at the point plus the step. An equation in one unknown prints what its sides print at 8.21785 and then at each of the points visited by the searches from -1000, -999, ..., 999, of at most 1000 steps each, whether or not they find a solution. An equation between vectors or matrices prints what its sides print at 8.21785, and a request that is rejected at once (no equation, an unknown that is a variable of the context, more unknowns than equations) prints nothing. Operators, lists, vectors and matrices print what their operands and entries print, from left to right and row by row; if the left operand fails, the right one prints nothing. A call of a function of the context prints what its arguments print and then what its body prints for each combination of their values. The lines printed are determined by the expression and the context.", "quantifier": "all expressions, texts, contexts, precisions and number types", "why_tests_cant": "Every expression, nested in any way: output nobody looks for is not seen by a test.", "anchors": ["src/maths/calculus.rs:calculate_integral,calculate_derivative", "src/parser.rs:eval,parse", "src/lib.rs:quick_eval", "src/roots.rs"]}
{"id": "C92", "title": "Nested derivatives and integrals", "statement": "With exact arithmetic, D(D(e,x,a),y,b) and D(D(e,y,b),x,a) are the same number for different variables, double integrals do not depend on the order of integration, and a derivative may be taken under the integral sign. n+1 nested derivatives D(...D(e,x,x)...,x,a) are within L*(n+1)*10^-PREC of the (n+1)-th derivative if that changes by at most L per unit near a. I(D(e,x,x),x,a,b) is e(b)-e(a) up to L*(b-a)^2/10^(PREC-3) + L/2*10^-PREC*(b-a) if the derivative of e changes by at most L per unit; D(I(e,t,a,x),x,c) is e(c) up to similar errors. In binary64 arithmetic this fails: with the default precision D(D(x*x,x,x),x,a) is never within 0.2 of 2, for any a from 1 to 1000.", "quantifier": "all expressions, variables, points, bounds, contexts and precisions, any depth of nesting", "why_tests_cant": "All differentiable functions and all points; a test differentiates a few.", "anchors": ["src/maths/calculus.rs:calculate_derivative,calculate_integral", "src/parser.rs:eval"]}
{"id": "C93", "title": "Nothing is invented by the parser", "statement": "Every name in the tree of a text (of a variable, a function, a variable of an integral or derivative, a search variable) is a contiguous piece of the text without blanks; every number is read from such a piece or is the 0 filled in for a missing operand. The names together have no more characters than the text. A text of k characters gives a tree of at most 2k-1 names, numbers and other nodes, and for every k there is a text that attains this.", "quantifier": "all texts, feature sets and number types", "why_tests_cant": "A bound and an origin for every text, of any length and nesting.", "anchors": ["src/parser.rs:parse,parse_inner,parse_value", "src/helpers.rs:get_args"]}
{"id": "C94", "title": "The calculus functions called directly, and the caller's context", "statement": "maths::calculus::calculate_derivative and calculate_integral have the outcome of evaluating D(...) and I(...). calculate_derivative changes the context it is given: after a success, or if the point is not a scalar, the variable is removed from it, whatever it held before; after a failure it is left set to the point (if the expression fails there) or to the point plus the step. All other variables and the functions stay. calculate_derivative_newton behaves likewise and returns the first of the values of the derivative; it panics where the expression has no value at the point, and with a value for f(x) given it uses that without checking it. In a context made with two variables of the name of the integration variable, calculate_integral replaces only the first, so the integrand sees the second instead of the points of the interval.", "quantifier": "all expressions, variables, points, bounds and contexts", "why_tests_cant": "The context is left in a different state on each of the exits of the function; a test sees the exits it triggers and usually passes a context that is not used afterwards.", "anchors": ["src/maths/calculus.rs:calculate_derivative", "src/maths/calculus.rs:calculate_derivative_newton", "src/maths/calculus.rs:calculate_integral", "src/lib.rs:maths"]}
{"id": "C95", "title": "An overflow is never hidden", "statement": "A formula of literals, variables, sums, differences, products, absolute values and quotients by literals, evaluated in binary64, always ends with one number. If this number is finite, no overflow has happened on the way and it differs from the exact value by at most ((1+2^-53)^n - 1) times the size of the formula, where n counts the roundings and the size is the value of the formula with all signs made positive (plus 2^-1022 for every literal, product and quotient). Nothing is assumed about the sizes of the variables or of the intermediate results. With quotients by formulas this fails: for x = 2^600 the result of (x/(x*x))*x is 0, not 1.", "quantifier": "all formulas of this kind, all contexts whose variables hold binary64 numbers, infinities and NaN included", "why_tests_cant": "All formulas and all 2^64 values of every variable.", "anchors": ["src/parser.rs:eval", "src/maths.rs:add,sub,mult,div,abs,neg", "src/lib.rs:quick_eval"]}
{"id": "C96", "title": "Nothing is dropped by the parser", "statement": "An ASCII text that is accepted is, without its blanks, a way to write its tree: every character of it is an operator, bracket, comma, function name, variable name or digit that the tree shows, in the same order, except the last character of D(...), I(...) and eq(...) where the name of a variable contains a ')', and what follows a second '=' in an equation. Two texts without digits and '=' which are read as the same tree are the same text but for blanks.", "quantifier": "all ASCII texts, feature sets and number types; for the second sentence trees whose names contain no ')'", "why_tests_cant": "A test that parses a text and compares the tree does not see a character that is ignored elsewhere; all texts of any length and nesting.", "anchors": ["src/parser.rs:parse,parse_inner,parse_value", "src/helpers.rs:get_args"]}
{"id": "C97", "title": "A failure of a part is never hidden", "statement": "If an expression evaluates to a value, so does each of its parts (entries, arguments, operands, bounds, points) at any depth, also those whose values do not matter (0*y, unused arguments). The parts are evaluated from left to right: the error or panic of the first part without a value is that of the whole, and if that part never ends the whole never ends. Every error has its origin in a part all of whose own parts have values, in an impossible call, or in an entry of a vector or matrix that is no number. A text with a variable (outside of integrands, derivatives and equations) that the context lacks is never evaluated to a value.", "quantifier": "all expressions, contexts, errors and number types", "why_tests_cant": "Any depth of nesting, any combination of failing and succeeding parts.", "anchors": ["src/parser.rs:eval_rec,eval", "src/lib.rs:quick_eval"]}
{"id": "C98", "title": "Working step by step", "statement": "Evaluating an expression in one go or in steps makes no difference. If the text d evaluates to some values, these are stored in a variable x, and a text with x is evaluated, the outcome (values, error, panic or no answer) is that of the text in which (d) is written at the places of x, evaluated in the context without x; writing (d) at some of the places only makes no difference either. In the same way a call f(d) has the outcome of f's body with (d) written for the parameter, if d has one value. (d consists of numbers, variables, vectors, matrices, lists, operators and built-in functions; places under an integral, derivative or system of equations that gives x or a variable of d its own meaning stay as they are.)", "quantifier": "every text of the grammar, every such part d with any number of values, every variable x, every context in which no function refers to x, every outcome", "why_tests_cant": "relates the evaluations of unboundedly many pairs of texts and contexts", "anchors": ["src/basetypes.rs: AST::eval", "src/basetypes.rs: Context::add_var", "src/lib.rs: quick_eval", "src/parser.rs: parse"]}
{"id": "C99", "title": "One result for every choice", "statement": "An expression whose parts have several values (variables holding several values, lists in braces, the plus-minus operator &) has exactly the results of its readings, in a fixed order: at every place one value of the variable, one entry of the list, or one of the two signs is chosen, independently at every occurrence (so x-x need not be 0), the choice at the last place changing first. Each reading has exactly one value, in every context; the expression has results exactly if all readings have. With k plus-minus signs and one-valued variables there are 2^k results. In particular the text (-b&sqrt(b^2-4*a*c))/(2*a) gives both solutions of a*x^2+b*x+c=0 and nothing else (exact arithmetic, real solutions, a not 0).", "quantifier": "every expression of numbers, variables, vectors, matrices, lists, operators and built-in functions, with any number of values at any number of places, every context; the quadratic formula for all real coefficients", "why_tests_cant": "the number of combinations grows exponentially with the expression, and the expressions are unbounded", "anchors": ["src/parser.rs: eval", "src/parser.rs: eval_rec", "src/helpers.rs: cart_prod", "src/lib.rs: quick_eval"]}
{"id": "C100", "title": "Shapes are predictable", "statement": "Whether an expression yields numbers, vectors of which length or matrices of which size follows from the shapes of the variables alone, by simple rules: a sum needs equal shapes; a product may scale, be a scalar product, apply a matrix to a vector or multiply fitting matrices; a call has the shape of the body with the arguments' shapes; derivatives keep the shape; a system with k unknowns gives numbers (k = 1) or vectors of length k. All results have the predicted shape. An expression with a shape never panics and fails only for reasons that depend on the numbers: exponent or index not an integer, index too large, singular matrix, or a derivative with a varying number of values; never for a missing name, a wrong number of arguments, recursion or operands of the wrong kind or size. Conversely, an expression (without lists, integrals, equations) that can be evaluated has a shape, so one without a shape always fails.", "quantifier": "all expressions, contexts whose variables have values of one shape each, functions called with any shapes, number types and outcomes", "why_tests_cant": "any sizes, any nesting, any number values; tests try a few sizes", "anchors": ["src/parser.rs: eval_rec", "src/maths.rs: add,sub,mult,neg,div,cross,get,pow,abs,det,inv", "src/maths/calculus.rs: calculate_integral,calculate_derivative", "src/roots.rs: RootFinder::find_roots"]}
{"id": "C101", "title": "What the features change", "statement": "The feature row-major changes how matrix literals are read and nothing else: every text is read as without the feature, with each matrix literal transposed, and texts that cannot be read are refused with the same error; a text without '[' means the same in every build. Evaluating, solving and printing do not depend on row-major. The feature high-prec plays no part in reading, and none in evaluating expressions without integrals, derivatives and equations: such a text without brackets has the same outcome of quick_eval in every build.", "quantifier": "all texts, trees, contexts, number types, outcomes and pairs of feature sets", "why_tests_cant": "relates two builds of the crate for every input; a test runs in one build", "anchors": ["src/lib.rs: PREC", "src/parser.rs: parse_value,parse_inner,eval", "src/basetypes.rs: AST::as_string,AST::as_latex", "Cargo.toml: features"]}
{"id": "C102", "title": "When an operation panics", "statement": "Values can be made by hand: vectors without entries, matrices without rows or with rows of different lengths. For every operation and every pair of such values it is determined exactly whether it panics: addition and subtraction of matrices, scaling, products, powers panic for a missing row or a row shorter than the first where it is read (a product with a vector for a row longer than the first), indexing for an empty vector, det and inv only for the matrix without rows; no other operation ever panics, and none does on values as the library makes them. The same holds for operations on variables in an expression. Printing with unicode symbols panics exactly for empty vectors, and matrices without rows, with an empty first row or with a row shorter than the first.", "quantifier": "all operations, all values of any shape and entries, all contexts, number types", "why_tests_cant": "all shapes of ragged matrices of any size", "anchors": ["src/maths.rs", "src/maths/add_sub.rs", "src/maths/mult_div.rs", "src/maths/cross_pow.rs", "src/maths/special.rs", "src/basetypes.rs: Value, Value::as_unicode"]}
{"id": "C103", "title": "Two ways to compute the same thing agree", "statement": "In exact arithmetic different expressions for the same quantity give the same numbers, from the texts: inv(A*B) and inv(B)*inv(A), inv(inv(A)) and A, inv(A)^n and inv(A^n) (each where the matrices to be inverted have non-zero leading minors), det(inv(A)) and 1/det(A), A^m*A^n and A^(m+n), (A^m)^n and A^(m*n), det(A^n) and the power of the determinant, u*(v#w) and the determinant of the rows u, v, w, (u#v)*(u#v) and (u*u)*(v*v)-(u*v)*(u*v), abs(v) and sqrt(v*v), root(x,2) and sqrt(x), tan(x) and sin(x)/cos(x), sin(x)^2+cos(x)^2 and 1, and a linear system solved with eq and inv(A)*b. They do not agree everywhere: invertible A and B can have finite inverses while inv(A*B) is not a number, likewise inv(inv(A)), and A^(-1) is the identity.", "quantifier": "all square matrices, vectors, exponents and numbers, all contexts that hold them", "why_tests_cant": "Algebraic identities for all matrices and sizes; tests compare a few numbers.", "anchors": ["src/maths.rs", "src/maths/mult_div.rs", "src/maths/special.rs:inv,det", "src/maths/cross_pow.rs", "src/roots.rs"]}
{"id": "C104", "title": "Expressions that cannot fail", "statement": "An expression that has a shape (C100) and neither indexes, inverts a matrix, raises a matrix to a power, integrates nor solves an equation is always evaluated successfully, whatever the numbers are (also NaN and infinities): evaluation ends, there is no error and no panic, and all values have the predicted shape. This includes calls of functions, derivatives, lists and plus-minus. The number of values depends only on the expression and on how many values the variables have. Each of the excluded operations can fail on operands of the right shapes.", "quantifier": "all expressions and texts with such a shape, all contexts with variables of the given shapes, all number types with finite small integers", "why_tests_cant": "Success for all numbers, sizes and nestings at once; tests show single successes.", "anchors": ["src/parser.rs: eval_rec", "src/maths.rs", "src/maths/calculus.rs: calculate_derivative"]}
{"id": "C105", "title": "A reported error is true", "statement": "If evaluating an expression (or a text with quick_eval, or solving equations with solve) reports an error, the error is about something that is there, at whatever depth of calls, integrals, derivatives and equations it arose: a variable or function reported as missing is used in the expression or in the body of a function of the context, and the context has none of that name; a wrong number of arguments is the number of arguments of such a call of a function with that other number of parameters; recursion is reported only if a function of the context calls itself in its body; errors about vectors, matrices and equations only if there is one, an underdetermined system only if there are fewer equations than unknowns. The errors InfiniteSolutions, NaNOrInf and ExpressionCheckFailed are never reported, and quick_eval never reports DuplicateVars.", "quantifier": "all expressions, texts, systems of equations, contexts, errors, number types and budgets", "why_tests_cant": "The cause of every error in every nesting of functions and scopes; a test provokes single errors at one place.", "anchors": ["src/parser.rs: eval_rec", "src/maths/calculus.rs", "src/roots.rs", "src/solver.rs: solve", "src/lib.rs: quick_eval", "src/errors.rs: EvalError"]}
{"id": "C106", "title": "The order of the sides of an equation", "statement": "To solve an equation the library subtracts one side from the other: the textually shorter one from the longer one. For equations in one unknown, however many, it does not matter which: with the sides of any of the equations exchanged, eq(...) and solve return exactly the same numbers in the same order, within the same number of steps, and fail to return a solution in the same cases; from trees and from texts, for arbitrary sides (also with several values) in any context. The equations may stand anywhere in an expression, also inside other equations in one unknown, integrals and arguments: its results stay the same. This holds in exact arithmetic and bit for bit in binary64. Only the error that is reported may differ.", "quantifier": "all equations and systems in one unknown, contexts, budgets, precisions up to 22; exact arithmetic, binary64 with arbitrary elementary functions", "why_tests_cant": "Relates two runs of the whole search (2000 starts of up to 1000 steps) for all expressions.", "anchors": ["src/parser.rs: parse_inner (equation), eval_rec", "src/roots.rs: RootFinder, newton, jacobi_and_gauss", "src/maths/calculus.rs: calculate_derivative_newton", "src/solver.rs: solve"]}
{"id": "C107", "title": "Expressions with the same results may replace each other", "statement": "If whenever an expression has results another one has the same results (perhaps a fixed number of steps later), then one can be written for the other anywhere in an expression, also below integrals, derivatives and equations, and the results of the whole expression, if it has any, stay the same. It does not matter how the two expressions fail: other than in C79 they may fail with different errors. So no construct of the language turns a failure into a result: in particular the search for solutions does not skip points at which a side of an equation fails to evaluate.", "quantifier": "all expressions, pairs of expressions, places, contexts, number types and budgets", "why_tests_cant": "All pairs of expressions at all places of all expressions; a construct that catches an error anywhere would break it.", "anchors": ["src/parser.rs: eval_rec", "src/maths/calculus.rs", "src/roots.rs: RootFinder, newton"]}
{"id": "C108", "title": "An equation written twice", "statement": "Writing an equation in one unknown twice changes nothing: eq(l=r,l=r,x) and solve with the same equation twice have the same outcome as with the equation once, results, errors and panics alike, from trees and from texts, for all expressions l and r and every number type. The second time the sides may also be exchanged; then the results stay the same.", "quantifier": "all expressions, contexts, names, number types and budgets", "why_tests_cant": "Relates the two runs of the whole search for all expressions; the second equation goes through other code (combinations of equations, checks of the equations not searched).", "anchors": ["src/roots.rs: RootFinder, newton, generate_combinations", "src/parser.rs: eval_rec", "src/solver.rs: solve"]}
{"id": "C109", "title": "Rewriting an expression", "statement": "Texts that can be rewritten into each other by the rules c+e=e+c and c*e=e*c (c a number, as 3, -2.5 or sin(1)/2), 2x=2*x, l-r=l+(-r), -(-e)=e and (e)=e, by writing a number in another way (an expression of numbers with the same value, as 1/2 and 0.5), by exchanging the sides of equations in one unknown and by leaving out an equation in one unknown that is written twice have the same results: exactly the same values in the same order, or both none. The rules may be used in any number of steps, in both directions and at any place: in operands, arguments, vectors, matrices and lists, below integrals and derivatives and in the sides of equations in one unknown; the parts may be numbers, vectors, matrices and have several values. This holds in exact arithmetic and, bit for bit, in binary64 (with zeros, infinities and NaN).", "quantifier": "all expressions, places, sequences of rewriting steps and contexts; exact arithmetic, binary64 with arbitrary elementary functions", "why_tests_cant": "All pairs of texts related by arbitrary many steps; relates complete runs of the parser and the evaluation, including the search for solutions.", "anchors": ["src/parser.rs: parse_inner, eval_rec", "src/maths.rs", "src/maths/add_sub.rs", "src/maths/calculus.rs", "src/roots.rs: RootFinder, newton"]}
{"id": "C110", "title": "Rounding never turns the order around", "statement": "In double precision, an expression that by its form rises with some variables does not fall anywhere, whatever the rounding errors: if these variables are given values that are not smaller, no value of the expression becomes smaller (compared in their order); and of an expression that falls by its form no value becomes larger. Such expressions are made of the variables, sums, differences (rising minus falling), negation, parentheses, plus-minus with a part that does not depend on the variables, products with and quotients by positive numerals, and integrals between bounds that do not depend on the variables, and of arbitrary operations on parts without the variables. Zeros of both signs, infinities and overflows are included; NaN is neither larger nor smaller than anything. Vectors and matrices without the variables stay equal.", "quantifier": "all such expressions and texts, pairs of contexts with values in order, settings with 3 to 25 decimals; binary64 with arbitrary elementary functions", "why_tests_cant": "All pairs of arguments, also neighbouring doubles, and for integrals sums of arbitrarily many rounded terms.", "anchors": ["src/parser.rs: eval_rec", "src/maths.rs: add, sub, mult, div, neg", "src/maths/calculus.rs: calculate_integral", "src/lib.rs: quick_eval"]}
{"id": "C111", "title": "Lengths obey the inequalities of geometry", "statement": "In exact real arithmetic, for vectors u and v of the same dimension: abs(u+v) is at most abs(u)+abs(v) (also for numbers u and v), abs(abs(u)-abs(v)) is at most abs(u-v), abs(u*v) is at most abs(u)*abs(v), and abs(x*v) is abs(x)*abs(v) for every number x. abs(v) is never negative, and zero only for the zero vector. In a parallelogram (u+v)*(u+v)+(u-v)*(u-v) is 2*(u*u+v*v).", "quantifier": "all vectors of all dimensions, numbers, contexts and settings; exact real arithmetic", "why_tests_cant": "Inequalities between results for all vectors of every dimension.", "anchors": ["src/maths.rs: abs, add, sub, mult", "src/maths/mult_div.rs: vvmult", "src/lib.rs: quick_eval"]}
{"id": "C112", "title": "Matrices are linear maps", "statement": "In exact arithmetic, for matrices and vectors of fitting dimensions: A*(u+v) and A*u+A*v, A*(x*v) and x*(A*v) for a number x, (A+B)*v and A*v+B*v, (A*B)*v and A*(B*v), det(A*B) and det(A)*det(B) give the same numbers.", "quantifier": "all matrices (not only square ones) and vectors of all dimensions, contexts, settings, exact number types", "why_tests_cant": "Relates different computations for all matrices of every dimension.", "anchors": ["src/maths.rs: mult, add, det", "src/maths/mult_div.rs: mvmult, mmmult, svmult", "src/lib.rs: quick_eval"]}
