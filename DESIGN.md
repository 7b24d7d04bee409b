# A Lean 4 model of zenbakiak/skillet

`properties.jsonl` lists the properties, `lean/Verif` holds the model and the proofs,
`MANIFEST.json` maps each property to theorems, `seeded/LOG.jsonl` records the
wrong-program experiments.

## Layout

| directory | contents |
| --- | --- |
| `lean/Verif/Base` | arithmetic of IEEE binary64 (`F64`), strings as lists of characters (`Str`) and the std-library string functions the code calls |
| `lean/Verif/Model` | the model, one file per Rust module; every definition cites file and lines |
| `lean/Verif/Lemmas` | helper lemmas |
| `lean/Verif/Spec` | small independent specifications used in theorem statements |
| `lean/Verif/Check` | the model run on the assertions of the repository's own tests |
| `lean/Verif/Props` | the property theorems, each followed by an `example` meeting its hypotheses; specifications used by one file only stand at its top |

## Modelling decisions

* **Numbers.** `f64` is modelled by an explicit datatype: NaN, two infinities, two
  zeros and non-zero rationals, with `+ - * / %` defined as the exact rational result
  rounded to nearest-even binary64 (`F64.round`). One NaN stands for all NaN payloads.
  Decimal-to-double conversion (`str::parse::<f64>`) is the rounding of the exact
  decimal value. Nothing about floats is assumed; comparison laws are proved. The datatype has rationals that
  are no doubles; the arithmetic operations round their results, and theorems that need a
  double say so (`F64.IsDouble`, proved closed under the operations).
* **Externals.** What the code delegates to libm, serde_json, jsonpath, Unicode tables,
  the clock, or the formatting of floats is a field of the structure `Ext` (for the HTTP server also
  `Http.HttpExt`: JavaScript engine, body decoding, I/O errors). Theorems quantify over every
  `Ext`, so they assume nothing about those functions, except where a theorem
  states a hypothesis about them explicitly. The derived `Debug` text of values and the escapes of strings in it are modelled;
  which non-ASCII characters are escaped is external. For JSON texts there is also a model of serde_json (`JsonText`, from its documentation and RFC 8259, since its source is
  not in the repository); theorems that use it say so by the hypothesis `JsonText.Uses`.
* **Strings** are `List Char` (`Str`); Rust `&str` is a sequence of Unicode scalar values. Byte-level
  code (the lexer) is modelled on characters, with the UTF-8 width of each character where
  positions matter: all bytes the lexer tests for are ASCII and never occur
  inside a multi-byte character. Where bytes come from a socket (`HttpRead`, `TcpServer`) the model has
  bytes and a UTF-8 decoder.
* **Errors and panics.** `Result<_, Error>` is `Except Fail _`; `Fail.err` carries the message
  template and its arguments, `Fail.panic` is the explicit panic outcome. Integer overflow is
  modelled as in a debug build (panic).
* **Maps.** `HashMap<String, Value>` is a partial function `Str → Option Value` where only
  get/insert are used, and an association list where it is enumerated.
* **Recursion.** Both evaluators are structurally recursive on the expression. The
  parser is recursive on fuel and a theorem shows the supplied fuel always suffices.
  Stack exhaustion is not modelled.
* **Custom functions.** `CustomFn` is any function of the arguments. `Effects` models both evaluators once more for
  custom functions that read and change a world of any type; for functions that do not, the two models agree (`Fx.C121_quiet`).
  `Live` models them a third time, for a registry that other threads change during an evaluation; it is another one at each look (C141).
* **Threads.** Concurrent code is modelled as a step machine; theorems quantify over all
  interleavings of atomic steps (one access to a `DashMap`, one critical section of a mutex, one
  operation on the `RwLock`, one atomic operation).
* **Where the code does not have a property** the negation is proved on a concrete witness (theorem
  names ending in `_fails`, `_wrong`, ...), and what does hold is proved under a hypothesis, with
  the suffix `_partial`. Such properties have status `partial`.

## How the model was checked against the program

The code could not be run here, so the model rests on reading it. As a check of that reading, `Check/RepoTests.lean` runs the model on the assertions of the
repository's own test suite: 437 expressions of 18 of the files in `/repo/tests` and of `src/lib.rs`, each with the variables, the JSON text or the command line of the test and
the answer it asserts. The model gives every one of these answers (computed by the kernel, `RepoTests.*_pass`). The external functions are given there as computable
functions (shortest decimals, exact powers and roots, the JSON model, a small path interpreter, a clock that stands still). `Check/DocExamples.lean` does the same with the examples of
the documentation that show a result: the model gives it for 295 of them, and for the 31 others, listed there, the documentation is wrong about the program (C135 and others). These are tests on samples, not proofs, and
no claim in the manifest refers to them. `Check/UnitTests.lean` does it with the unit tests inside the sources
(multipart bodies, comments of function files, paths, registries, pools, the cache). Not run: `sk_concurrency.rs` and `sk_performance.rs`, which measure threads and time, and tests that run JavaScript.

## Trusted base

* Lean's kernel (4.33.0).
* The axioms `propext`, `Classical.choice` and `Quot.sound`. Every theorem named in the manifest depends
  on a subset of these (checked with `#print axioms`). No own axioms, no
  `sorry`, no `native_decide`, no `bv_decide`. Concrete witnesses are evaluated by the kernel
  (`decide`, or the tactic `kernel_rfl` of `Base/KernelRfl`, which closes `a = b` by `rfl` checked in
  the kernel).
* Mathlib's definitions, where they occur in statements (real powers for the loan identities, `List.Perm`, sorting).
* The reading of the Rust source recorded in the citations, and of the library functions the model
  contains: `str` methods, `f64` operations and parsing, saturating casts, `Vec::sort_by`, `DashMap`, `RwLock`,
  `LruCache`, `chrono`'s calendar, UTF-8 decoding, file system paths.

## What is modelled

| source | model | left out |
| --- | --- | --- |
| `ast.rs`, `types.rs`, `error.rs` | `Expr`, `Value` | |
| `lexer.rs`, `parser.rs` | `Lexer`, `Parser`, `Stack` | `last_end` (never read), `Token::And/Or` words (never produced) |
| `lib.rs` | `Lib` | |
| `runtime/evaluator.rs` | `Eval`, `Ops`, `Closure`, `Effects`, `Live`, `StackEval` | a poisoned lock |
| `runtime/evaluation/core.rs`, `higher_order.rs`, `assignments.rs` | `Legacy`, `Ops`, `Closure`, `Runtime`, `Effects`, `Live` | |
| `runtime/method_calls/*` | `Methods` | |
| `runtime/function_dispatch.rs`, `builtin_functions.rs` | `Dispatch` | |
| `runtime/arithmetic.rs`, `logical.rs`, `string.rs`, `array.rs`, `json.rs`, `jsonpath.rs`, `datetime.rs`, `financial.rs`, `statistical.rs`, `type_casting.rs`, `utils.rs` | `Arithmetic`, `Logical`, `StringFns`, `Array`, `JsonFns`, `DateTime`, `Financial`, `Statistical`, `Utils` | evaluation of a JSONPath (`Ext.jsonPath`) |
| `custom.rs`, `concurrent_registry.rs`, `memory_pool.rs` | `Registry`, `ConcurrentRegistry`, `Locks`, `MemoryPool`, `Rates` | capacities |
| `js_plugin.rs` | `Http` (metadata, loading, registration), `JsValues` (arguments and results), `HttpGet` (`httpGet`) | the JavaScript engine |
| `bin/http_server/{auth,cache,eval,js_management,multipart,types,utils}.rs`, `bin/sk_http_server.rs` | `Http`, `HttpCache`, `HttpRead`, `HttpWrite`, `HttpReplies`, `HttpOutput`, `HttpList`, `Health`, `Startup`, `Console`, `Workers` | timing, the texts of pages, failures of sockets |
| `bin/http_server/stats.rs`, the health report of `eval.rs` | `Stats`, `Health`, `TimedCache` | the clock |
| `bin/http_server/js_management.rs` (saving and deleting) | `Http` in one piece, `FileSteps` by system calls | links, permissions, what the disk loses in a power failure |
| `bin/http_server/eval.rs` (output) | `Http`, `HttpOutput` | |
| `bin/http_server/types.rs` | `Http`, `HttpBody`, `HttpJsBody`, `HttpWire` | error texts of serde_json |
| `bin/sk_server.rs` | `TcpServer`, `Wire`, `Stats`, `Startup`, `Console`, `Workers` | timing, failures of sockets |
| `bin/http_server/daemon.rs` and its copy in `bin/sk_server.rs` | `Daemon`, `Workers` (the flag) | process groups, reuse of process numbers, descriptors of the signal handler |
| `bin/sk_client.rs` | `Client`, `Wire`, `JsonPretty`, `ClientBench` | usage text, the clock, the layout of the report |
| `bin/sk.rs` | `Cli`, `CliOutput`, `JsonPretty` | usage text, timing |
| `bin/sk_http_bench.rs` | `Bench`, `BenchWire` | what is printed, the clock, failures of sockets, requests handled at the same time |
| `traits.rs` | `Extensions` | the traits without code |
| serde_json (a dependency) | `JsonText`, from its documentation; `JsonRead`, the reader of doubles of version 1.0.149 | texts of errors; writing of doubles is specified (`NumText`) |

Not modelled: `runtime/method_calls_old.rs` (not compiled: no `mod` mentions it).

## Properties

One row per property: what is modelled, how it is proved, the outcome. Theorem names are in `MANIFEST.json`.

| id | property | what is modelled | how it is proved | outcome |
| --- | --- | --- | --- | --- |
| C01 | Parsing any text terminates with an expression or an error | lexer and recursive-descent parser with fuel | fuel sufficiency by induction on remaining input | proved |
| C02 | Parsing never panics | token positions of the lexer with checked subtraction | exactly the texts starting with `==` underflow; iff by case analysis over tokens | partial: False as stated: texts starting with '==' panic. The iff gives exactly those texts. |
| C03 | Printing an expression and parsing it gives the expression back | parser, independent printer (`Spec/Syntax`) | induction on expressions, per precedence level | proved |
| C04 | Whitespace between tokens is insignificant | lexer | lexing lemma for whitespace-prefixed input; the parser sees tokens only | proved |
| C05 | All of the input is parsed or the input is rejected | `Parser::parse`, the lexer | soundness of lexer and parser: by induction on the fuel every successful parsing function has read the tokens of a source tree with the tree returned, and those tokens are spelled by the text consumed; negation for every program and tail | partial: False as stated. Proved for every accepted text: it is a program of the language (after an optional =), the tree is the tree of that program, and what follows is nothing, a final ; or a text starting with a token that is not ;, ? or a binary operator. The negation is proved for every program and every tail starting with a token of a listed kind; C05_after_cast_is_dropped and the other witnesses show the remaining kinds. |
| C06 | Numeric literals denote the correctly rounded double | `Lexer::number`, `F64.round`, `Spec/Binary64` | exactness of the fast path below 2^53; rounding of the exact decimal otherwise | proved |
| C07 | String literals are transparent | `Lexer::string` and an escaping function (`Spec/Text`) | induction on the string | proved |
| C08 | Names: functions and keywords are case-insensitive, variables are case-sensitive | lexer/parser case folding (`Spec/Names`) | induction on the identifier | proved |
| C09 | A result depends only on the variables the expression mentions | both evaluators and all method handlers | coincidence lemma by structural induction | proved |
| C10 | The public entry points agree | the entry points of lib.rs | structural induction relating contexts | partial: evaluate = evaluate_with {} and assignments = evaluate_with are proved for all programs. evaluate_with_custom with an empty registry differs from evaluate_with (witnesses); the partial theorems give equality for programs without lambda methods, and the same value or a common failure for programs whose method lambdas name no parameters of nested higher-order functions and index and slice by literals below 2^31. |
| C11 | Assignment semantics | `eval_with_assignments_context` | induction on the statement list against a big-step spec | proved |
| C12 | Assignments nested inside other expressions | same | negation with witness | partial: False as stated: assignments below the top level bind nothing. |
| C13 | The ternary evaluates only the branch taken | `__TERNARY__` | case analysis for arbitrary branches | proved |
| C14 | && and || short-circuit | `Expr::Binary` | negation with witness; both operands must be booleans | partial: False as stated: the right operand is always evaluated. |
| C15 | Comparison operators are coherent | `eval_binary_op` over `F64` and `Str` | case analysis and order laws | proved |
| C16 | Equality is reflexive | same | iff by cases | partial: False as stated for null, arrays, currencies, JSON, dates and NaN; the iff says exactly when it holds. |
| C17 | FILTER / FIND / MAP / REDUCE / COUNTIF compute their mathematical definitions | higher-order functions | induction on the array, against `List` functions | proved |
| C18 | Lambda parameters do not leak | same | the environment passed for element i is the outer one with the parameter rebound | proved |
| C19 | Higher-order function and method forms agree | unified and legacy evaluator | negation with witnesses; simulation between the evaluators on the fragment both read alike (`Lemmas/Sim`) | partial: False as stated: the forms run in different evaluators; the partial theorems cover lambdas both read alike, up to error texts. |
| C20 | Custom functions are available wherever the expression is evaluated with them | both | negation with witnesses; positions outside FILTER-style lambdas | partial: False as stated: function-form lambdas, plain method arguments and assignment programs do not see custom functions, and the tools take every expression with ; or := in a text for an assignment program. |
| C21 | A custom function shadows the built-in of the same name and respects its arity | `eval_function_call`, `FunctionRegistry::execute` | case analysis | proved |
| C22 | SUMIF / AVGIF criteria | SUMIF/AVGIF | spec of criteria, induction over the ranges | proved |
| C23 | Safe navigation never fails on null | safe navigation | case analysis | proved |
| C24 | Indexing: valid indices return the element, everything else is an error, never a panic | `index_array` on saturated i64 | integer arithmetic; panic witness for i64::MIN | partial: False as stated: an index of -2^63 or below panics in a debug build and NaN reads element 0; proved for every other number. |
| C25 | Slicing splits an array | `slice_array` | integer arithmetic, list lemmas | proved |
| C26 | FLATTEN removes all nesting and keeps the leaves in order | FLATTEN | nested induction against an inductive leaf relation | proved |
| C27 | REVERSE is an involution preserving elements | REVERSE | list lemma | partial: False as stated: REVERSE of a string is an error in function form; arrays and the method forms are proved. |
| C28 | SORT returns an ordered permutation | SORT | insertion sort gives the sorted permutation, unique up to equal keys | partial: False as stated: NaN panics, non-numbers are refused; proved for numbers without NaN. |
| C29 | UNIQUE keeps the first occurrence of each element | UNIQUE | induction over the array with the seen set | partial: False as stated: UNIQUE drops non-numbers and keeps both zeros; proved for the numbers of the array by bits, and for .unique() on values of all types, provided {:?} prints different numbers differently; C137_unique derives that from the documentation of {:?}. |
| C30 | CONTAINS / IN decide membership | CONTAINS / IN, `values_equal` | nested induction against an inductive equality | proved |
| C31 | JOIN and SPLIT are inverse where they should be | JOIN, SPLIT, `str::split` | induction on the text | partial: JOIN after SPLIT is proved in full; SPLIT after JOIN is false for overlapping delimiters and no parts, proved otherwise. |
| C32 | String slicing functions work on characters and never panic | string slicing on byte offsets | char-boundary lemmas | partial: LEFT & SUBSTRING is false at +inf; everything else is proved for every finite position, absence of panics for all arguments. |
| C33 | CONCAT concatenates | CONCAT | induction on nested arrays | proved |
| C34 | LENGTH(s) and s.length() agree | LENGTH | UTF-8 widths | partial: False as stated: .length() counts bytes; proved for ASCII texts and arrays. |
| C35 | A cast yields the requested type or an error | `cast_value` | case analysis, rounding lemmas | partial: False for digit strings beyond the range of a double or of 64 bits; proved otherwise, up to the sign of zero. |
| C36 | Logical functions | `logical.rs` | list induction | partial: XOR takes two arguments only; everything else is proved for every argument list. |
| C37 | BETWEEN is reachable and is the closed interval test | BETWEEN, dispatch tables | case analysis | partial: The function form is unknown to the evaluator; the method form and calls inside method lambdas are proved. |
| C38 | SUM, AVG, MIN and MAX ignore grouping | SUM, AVG, MIN, MAX over nested values | induction over nested values | proved |
| C39 | MIN and MAX are attained bounds | MIN, MAX | fold invariants over a total preorder of doubles | proved |
| C40 | Order statistics | MEDIAN, PERCENTILE, QUARTILE | sorting lemmas, monotonicity of rounding | partial: False with NaN (panic), at overflow and for rounded interpolation; proved for NaN-free inputs as the theorems state. How far a percentile can leave the range of the numbers, and how far it is from the exact interpolation, is bounded for all finite numbers (C40_interpolation_partial). |
| C41 | MODE.SNGL returns a most frequent value | MODE | counting | partial: Proved with the two zeros told apart; false with them identified. |
| C42 | JSON conversion round trip | JSON conversions | nested induction, given that the JSON library reads back what it writes | partial: All three conversions are proved, given that the JSON library reads back what it writes (C127; for which numbers it does is C138); to_json of null is {} instead. |
| C43 | DIG follows the path | DIG | induction on the path against an inductive step relation | proved |
| C44 | JSON variables: every key is readable under its sanitized name | JSON variables | induction on the members | partial: Keys that agree after sanitizing collide, a member called arguments hides the document, and keys beginning with a digit cannot be written; proved for the other keys. |
| C45 | The function registry behaves like a case-insensitive map under every history | both registries as history machines | refinement to a map from folded names | proved |
| C46 | The thread-local function cache never serves a stale function | thread-local function cache | invariant over histories; stale witness | partial: The cache is never invalidated; proved for names registered once, and right after a clear. |
| C47 | Evaluation and registration cannot deadlock | the RwLock of the registry with writer preference | deadlock witness; progress measure without nesting | partial: A nested call in the arguments of a custom function can deadlock with a registration; proved free of deadlock without such nesting and without registrations. |
| C48 | Pooled contexts are always handed out empty and the pool is bounded | context pool as a history machine | invariant over histories | proved |
| C49 | Copy-on-write contexts behave like a copied map | copy-on-write context | refinement to a copied map | proved |
| C50 | The evaluation cache is transparent | `evaluate_cached` as a history machine | invariant on provenance of entries; witnesses | partial: False as stated, in four ways with witnesses; proved under the conditions that exclude exactly these, and provenance of every answer proved without conditions. |
| C51 | The cache respects its capacity and LRU order | LRU cache | refinement to an abstract recency list | proved |
| C52 | Cache statistics are truthful | cache statistics | invariants over histories | partial: Lookups, hits, misses and entries are right; the eviction counter stays 0 on capacity drops and counts replacements. |
| C53 | Cache keys distinguish requests | cache keys | injectivity of the encoding; collision witness | partial: Keys collide when the expression contains '\|'; injective otherwise, provided {:?} prints different numbers differently and without a closing parenthesis, which C137_keys derives from the documentation of {:?}. |
| C54 | Token checks are sound and complete | authorization header | list induction over lines; witnesses | partial: False as stated: a line of the body that looks like a header counts, and with an empty token a request without a header passes. Proved exactly which line decides, and the stated equivalence when no earlier body line interferes and the token is not empty. |
| C55 | Every management endpoint is behind the admin token | router | case analysis over all routes | proved |
| C56 | JS uploads stay inside the hooks directory | paths, resolution of `..` | induction over path components; witnesses | partial: False as stated: names with .. or an absolute path reach outside. Proved that only the named path is touched, and that names without a slash stay inside. |
| C57 | A saved function has passed validation; deleted functions stop being callable | function files as a history machine | invariant over histories; witnesses | partial: False as stated: a function whose own example fails is saved, and a deleted function stays callable until a restart. Proved what a saved file satisfies and what a restart registers. |
| C58 | HTTP request framing does not depend on packet boundaries | reading from a socket in arbitrary segments | induction over reads for every schedule | partial: False as stated: bytes beyond the announced body are included or not depending on how they arrive. Proved what is received for every segmentation, and independence when the client sends exactly the announced bytes. |
| C59 | Multipart uploads are received unchanged | multipart bodies | splitting lemmas; witnesses | partial: False as stated: surrounding white space, dashes and boundary-like text are lost. Proved unchanged for contents without these. |
| C60 | Responses carry the caller's variables faithfully | reported variables | case analysis; witnesses | partial: False as stated: a variable assigned its old value is not listed and cached answers list nothing. Proved exactly which variables are listed otherwise. |
| C61 | The TCP server answers every line exactly once | TCP connections under every interleaving | invariants over histories | partial: False as stated: a line whose evaluation panics or that is not UTF-8 ends the connection. Proved in order and without gaps for every interleaving, complete when no line does that, and ids distinct below 2^64 requests. |
| C62 | Command-line values are parsed without panicking | command-line values | well-founded induction on length; exact characterisation of crashes | partial: False as stated: a lone quote crashes. Proved exactly which texts crash, and what all others are read as. Stack exhaustion is not modelled. |
| C63 | Calendar round trip | civil calendar arithmetic | exact integer proofs | proved. chrono's calendar is modelled by the usual civil-day arithmetic; the theorems show it is the Gregorian calendar. |
| C64 | DATEADD and DATEDIFF are inverse | DATEADD, DATEDIFF | integer proofs on top of the calendar | partial: DATEADD panics outside the supported years and wraps months to 32 bits; proved within those bounds. |
| C65 | Loan identities | annuity formulas over a field | algebra over the reals; floating-point code instantiates the same formulas | partial: PMT and FV proved over the reals; IPMT is wrong from the second period on. |
| C66 | Evaluation is deterministic for time-free expressions | evaluators parametrised by the clock | structural induction | proved |
| C67 | A request read over a reused buffer contains nothing of earlier requests | thread-local buffer pool | invariant over sequences of connections | proved |
| C68 | The TCP server evaluates only lines that carry the configured token | TCP token check | invariant over histories | proved |
| C69 | The command-line tool evaluates with exactly the variables given | command-line arguments | induction on the argument list | partial: False as stated: with --json the other assignments are dropped. Proved for every sequence of words without --json. |
| C70 | The command-line tool, the TCP server and the HTTP server agree | three front ends | equality of the variables they bind, then of evaluation | partial: False for names with special characters and for arguments; proved otherwise, for the HTTP server on the first request (C50 is about later ones). |
| C71 | Evaluating an expression never panics | every builtin, method, loop and both evaluators, with each `unwrap`, index, slice and checked arithmetic kept as an explicit panic | a predicate `Only P` (every panic of this computation satisfies P) carried through every definition of the evaluator by induction on the expression; then instantiated with False and with the list of five texts | partial: False as stated, with witnesses. Proved: expressions without sorting functions, DATEADD, .sort and computed indices never panic; for every expression a panic is one of five named ones. |
| C72 | Registering a function changes only the expressions that call it | the registry, both evaluators | two runs side by side with registries that agree on the called names; induction on the expression | proved |
| C73 | Casts convert by value | cast_value | case analysis with the exact truncation and rounding lemmas for doubles | proved. Integers within 64 bits; text round trip given that the standard library reads back the number it prints, which C137 derives from its documentation. |
| C74 | Rounding functions compute the integer they name, in function and method form | Arith.floor/ceil/int/abs/round, Method.onNumber, F64 rounding | arithmetic on rationals; representability of the neighbouring integers of a double | partial: FLOOR, CEIL, CEILING, ABS and ROUND to an integer: proved for every finite double, exact, both forms. The agreement of the forms is false: INT(-1.5) = -2 but (-1.5).int() = -1, FLOOR of a text is 0 but the method fails, ROUND(x, -2) ignores the negative decimals but the method does not (C74_forms_differ). With positive decimals both forms agree (C74_round_forms_partial); ROUND(x, d) is the double nearest to k/10^d with k within a half of x*10^d up to the rounding of that product (C74_round_decimals, up to 22 decimals), leaves decimals of 15 digits alone and is idempotent; ROUND(2.675, 2) shows that the allowance is needed. |
| C75 | The remainder is exact | Arith.mod, Ops.binary, F64.rem | the remainder is a multiple of the smaller of the two units and smaller than the operands | proved. The remainder of two binary64 numbers is itself a binary64 number (proved), so modelling fmod as the exact remainder is sound. |
| C76 | Searching, replacing, trimming and changing case of texts | StrFn.*, Method.onString, Str.contains/startsWith/endsWith/replace/trim | induction on the text against an inductive specification of replacement | proved. Unicode case mapping is external; on it only the agreement of the forms is claimed. |
| C77 | Ends and size of an array | Arr.first/last/count, Method.onArray, indexArray | case analysis; sublists | proved. COUNT is exact up to 2^53 elements. |
| C78 | Predicates | Method.predicate, StrFn.isBlankFn/isNumber/isText | case analysis over values and doubles | partial: Parity is wrong beyond the 64-bit range (1e20.odd? holds) and is that of the integer part for fractions (2.5.even? holds). |
| C79 | Conversion methods are total, idempotent and agree with the casts | Method.conversion, castValue | a text that reads as a number contains no white space; case analysis | partial: to_f extends the float cast (proved); to_bool and the boolean cast differ exactly on white-space texts, the epoch and blank documents (proved, iff); text, array and integer conversions differ from the casts (C79_casts_differ). |
| C80 | Keys, values and members of a document are coherent | Method.onJson, Ops.property, JsonFn.dig | induction on the members | proved. JSON parsing is external; the keys of a parsed object are assumed distinct (a map). |
| C81 | The evaluation functions of skillet::runtime agree with the library's entry points | core::eval without variables, assignments.rs | simulation (`Lemmas/Sim`) with the relation "values and panics are kept"; the simulation of C19 lifted to statement lists | partial: False as stated, with witnesses (text comparison in runtime::eval, nested assignments, BETWEEN). Proved: every value or panic of runtime::eval is one of eval_with_vars, for every expression; eval_with_vars and the assignment functions agree with the entry points on expressions both evaluators read alike, including the variables afterwards, up to error texts. |
| C82 | Every built in function can be called, and calls are by upper case names | names in the tokens of source trees | from the soundness of the parser (C05) by induction on source trees | partial: The first half is proved for every text. The second is false of the five functions with a dot in their name: no text calls them (proved from parser soundness); every other built in function can be called. |
| C83 | JOIN, join and CONCAT write values the same way | `JOIN`, `join`, `CONCAT` | induction on the elements; the leaves of nested arguments as an inductive relation | partial: JOIN is proved for all arrays. The method agrees for texts and numbers only (it writes booleans in lower case and refuses nulls, amounts, dates, documents: witnesses). CONCAT agrees except that it drops amounts, dates and documents. |
| C84 | Products, powers and roots in function, operator and method form agree | PRODUCT, POW, SQRT, the operators and the method sqrt | Fold over the leaves of the arguments; exactness of multiplication by one; evaluation of the operator expressions with free operands. | partial: Proved for numbers. False otherwise: SQRT and .sqrt() differ below zero, and POW and SQRT take anything that is not a number (amounts included) for zero, for every such value. |
| C85 | Variance and deviation | VARP and STDEVP over doubles with rounding | Induction over sums of nonnegative doubles, monotonicity of rounding; kernel evaluation of the witness. | partial: That equal numbers have variance 0 is false: VARP(0.1, 0.1, 0.1) is positive (proved); it holds for equal integers whose sum is at most 2^53. The distance from the exact variance is bounded for all finite numbers (C85_error), and integers with an integral mean give the exact variance correctly rounded. The other claims are proved for all values. |
| C86 | Fixed declining balance depreciation | DB written generically over the arithmetic, instantiated to doubles and to the reals | Induction over the years, geometric series by ring arithmetic, real powers; case analysis of the clamp at zero. | partial: The totals are proved in exact real arithmetic for the formula, and the function is proved to compute that formula in floating point. False and proved false: with a partial first year the total always falls short, the first year is negative when the salvage value exceeds the cost (for a power function that is right on 2^1), and year 0 gives the second year. |
| C87 | sk_client evaluates what the command line says | argument loop, request, reply of `sk_client` against the model of the TCP server | induction on the words of the command line | partial: Proved for every sequence of words. Values are read as by `sk` except arrays, capitalized words and non-finite numbers (witnesses); with --json the assignments are dropped; a lone quote crashes the client (exactly then). |
| C88 | Server statistics count every request once | the two atomic counters as a step machine | invariant over all event sequences | partial: Exact at rest, modulo 2^64. A report made meanwhile reads the two counters at different moments: it may show a count without its time and the other way round (witness). |
| C89 | Results are sent faithfully | the output conversions of both servers | induction on the value | partial: Proved for finite numbers, texts, booleans, null and arrays of these (HTTP); the TCP server and `sk --output-json` agree on flat arrays. Amounts, dates, documents and non-finite numbers do not survive; inner arrays are sent as debug text over TCP (witnesses). |
| C90 | Values pass unchanged into and out of JavaScript functions | both conversions; the engine is any function on JavaScript values | mutual induction | partial: Proved for numbers, texts, booleans, null and arrays of these. Amounts and dates arrive as numbers, documents as texts, and the function cannot tell (C90_types_lost). |
| C91 | Parse errors point at the mistake | positions of lexer and parser, on bytes | invariant of the lexer state (the last consumed character is one byte wide), induction over the fuel for the sixteen parsing functions | partial: Proved for every text, counting from after a leading `=` (with one, the position is off by what precedes it: witness). Errors about type names are exactly those without a position. Witnesses: an `=` is reported one byte early, errors at the end are reported at the last token, an unknown first character is reported as an empty text. |
| C92 | The servers run with what their command line says | argument loops of both `main` functions | a grammar of command lines; the loop accepts exactly its lines, by induction on the words | proved. Proved for all command lines. `C92_no_threads`: the TCP server panics for 0 threads. `C92_swallowed`: a forgotten value makes the next option a value, so that `--log-file --token` runs without a token. |
| C93 | Responses can be read back | the bytes written by `send_http_response` and `handle_cors_preflight` | a declarative reading of an HTTP message; uniqueness by induction on the header lines | proved. All content types used in the code are constants without line breaks. Write failures are not modelled. |
| C94 | Accepted connections are served | a step machine of accept loop, pool and signal handler | an invariant over all histories: finished, active and waiting connections are a permutation of the accepted ones, waiting ones are the latest | partial: Proved for both servers up to shutdown, and for the shutdown of the TCP server. False for the HTTP server, which ends without waiting for its workers (witness), and for clients that stay connected to the TCP server: as many idle clients as there are workers keep everyone else waiting, and the server from ending, in every continuation. |
| C95 | Sums, averages and extremes: method and function forms agree | folds of both forms | both extreme folds select a bound of the same list; antisymmetry of the order of doubles | partial: Proved for arrays of numbers and amounts (min and max for non-empty ones, up to the sign of zero). False otherwise: the methods refuse anything else and inner arrays, which the functions skip or enter; on an empty array MIN is 0 and min() null (witnesses). |
| C96 | The extension registry keeps what is registered | maps, handler list, components as records of their methods | induction on the history from the right | proved. Names are case-sensitive here, unlike in the function registry (`C96_case_sensitive`). Nothing in the crate evaluates with this registry. |
| C97 | The arithmetic operators are exact or correctly rounded | operators as IEEE operations on the exact rationals | rounding specified by nearest values, not by the algorithm | proved. Amounts of money (Currency) are not numbers here: `:price + 1` is an error for them although SUM accepts them (`C97_needs_numbers`). |
| C98 | Sums, averages and products of numbers are as exact as doubles allow | folds of IEEE additions over the leaves (C38) | relative error of one addition from the specification of rounding, then induction on the list | proved. Beyond the bound the order matters (`C98_order_matters`). |
| C99 | The listing of function files is complete and agrees with uploads, deletions and reloads | the listing as a sort of the files below the directory | membership in the listing before and after each change of the file system | proved. For uploads with a plain name in an existing hooks directory. A file named just `.js` is accepted with 200 but never listed nor loaded (`C99_nameless`). File times and unreadable files are not modelled. |
| C100 | Arithmetic respects the order of numbers | rounding to nearest is monotone, from its specification alone | lists by induction | proved. The average of three need not be between them: AVG(0.1, 0.1, 0.1) > 0.1 (`C100_average_of_three`). `LeTrue` is the value of the text `:a <= :b`; powers of ten up to 10^22 are assumed right for ROUND. |
| C101 | GET /eval evaluates what the query says | the request line, the query and the loop over its parameters | splitting of encoded text, invariant of the loop over parameters | proved. Parameter names are not decoded by the code, so names are those that need no encoding; values are sent in any encoding (characters as they are or as bytes, with large or small digits). The decoder of the crate urlencoding is modelled. |
| C102 | Equals may replace equals, and parts can be named | expressions with a hole | induction on the place of the hole; coincidence (C09) for the new name | proved. Method arguments go to the older evaluator, so `SameEverywhere` asks for the same there; texts in quotes and `...e` are treated specially as arguments and excluded. `C102_not_inside`: naming a part of a MAP body can change the result; `C102_hoist` says when it does not (FILTER, FIND, MAP and REDUCE with the usual names of the element and the accumulator), `C102_hoist_dot` when it does not for methods. |
| C103 | A function does the same under each of its names | both dispatchers, the methods by lower-cased name | equality of the table entries; induction on the place of the call; agreement of the older evaluator up to wording | proved. `C103_wording`: in method arguments a failing call is reported as unknown under the name that was used. CEILING reads its second argument and ignores it, as CEIL does. |
| C104 | The body of a POST evaluation is read as its members say | the deserializers of types.rs over JSON trees with repeated members | induction on the members; `C104_complete` shows that reading and refusing exhaust all objects | proved. serde's reading of a text into a JSON tree is external; what the derived and the hand-written deserializers do with the tree is modelled. `C104_surprises`: the text "true" selects a variable of that name, unlike in a GET request, and an array of four members is a request. |
| C105 | The functions reported as built in are those that exist | the report, the count and the dispatch table | membership in the name lists; one successful call for each name, checked by the kernel with all external functions left open | partial: The code violates it for expressions (`C105_unreported`): FILTER, FIND, MAP, REDUCE, SUMIF, AVGIF, COUNTIF and JQ can be called but are not reported, and the dotted names are reported but cannot be called from an expression (C82). `C105_reported` assumes that the platform lower-cases `days` and reads the JSON `null`. |
| C106 | Numbers extracted from a value are those that aggregates use | the extraction and the aggregates | induction on the value, with the leaves of C26 as the specification | proved |
| C107 | Function files under concurrent requests and crashes | the disk with file numbers, and requests as sequences of system calls | invariants over all histories; following one request through them; refinement of the model in one piece | partial: Proved: other files; undisturbed requests (each stopping point, and equality with handling the request in one piece); where every byte comes from; deletions among themselves. The code violates the rest: `C107_torn` (two successful uploads leave a mixture that loads as a function nobody sent), `C107_cut` (a crash leaves a beginning that loads as another function), `C107_race` (a successful update and a successful deletion, and the file is there). Assumed: the hooks directory exists, paths are resolved and name no directories. |
| C108 | JQ returns what its path selects | JQ, the conversion of values to documents and back, and the path library as a parameter | the conversion is an inductive relation, shown equal to the function in both directions; then cases on the library's answer | proved. The path library is a parameter: which nodes a path selects is its answer. How numbers, amounts, dates and arrays are written as a document is the inductive `Spec.JqDoc`. |
| C109 | A server started with -d runs in the background as one process | processes, descriptors, sessions, the file and the port; the servers as sequences of system calls | invariants over all histories; concrete histories for the violations | partial: Proved: one process, its session, output and error, one server; the file when one server is started; status 1 leaves no process, status 0 leaves one; a start without failures serves. The code violates the rest: `C109_stdin` (descriptor 0 is closed again when `daemonize` returns, in every run, and the next file opened gets it), `C109_status_fails` (status 0 although the port is taken), `C109_second_start` (a second start replaces the number of the running server in the file), `C109_file_stays` (the file stays when the server ends). |
| C110 | Every request is answered by the endpoint it names and changes only what that endpoint may change | the request text, the routes and every handler's effect on files, functions, cache and counter | case analysis over the routes; induction over histories | proved. Two HTTP requests are two steps here; their interleavings are in C45, C88, C94 and C107. That an evaluation, an upload or an update can stay without an answer is the panic of C71 and C59. |
| C111 | Well-typed expressions do not go wrong | both evaluators, all functions, methods and loops in the rules | induction over the typing derivation, with loop invariants for the variables of lambdas; one lemma per function, method and operator | proved. The rules are in Spec/Types.lean and mention the syntax only. Left out of the rules: SUMIF, FIND and the first, last, min and max methods (they can give null for some data), the sort method (what it does with NaN is left open), NOW, DATE() and TIME (the clock), the cast of a number to a date (it can lie beyond the calendar), JSON, null. Inside method arguments REDUCE must name its parameters and FIRST, LAST and the other functions that can fail are not typed: the older evaluator that runs them calls the accumulator x and reports their failures as an unknown function. |
| C112 | The first part that fails decides the failure | the evaluator, its higher order functions and assignments | every construct evaluates its parts by one left to right pass and then continues with their values; induction over the chain of parts; uniqueness by comparing the first failing positions | proved. Which parts are evaluated when is written down in Order.parts and Order.Later, without reference to how the evaluator computes. The arguments of methods count as the method's own business: a failure in them has the method call as its origin. The criterion of SUMIF may fail by itself (it is then a lambda), so only its panics count. |
| C113 | What sk prints identifies the result | the derived Debug text of values, with the escapes of strings, and the standard output of sk | each part of the text can be told from what follows it, by induction over the value; characters by cases over the escapes | proved. Assumes that {:?} prints different floats differently, without a closing parenthesis or a control character; C137_apart derives this from the documentation of {:?}. C113_json_ambiguous shows that the JSON output is ambiguous. |
| C114 | The HTTP benchmark asks for the expression it names | the encoder of the benchmark, its requests, and the server with its percent decoder (crate urlencoding) | the encoder is percent encoding on ASCII, by cases over the 128 characters; each character becomes one byte, so lengths tell other texts apart; then C101's lemma on requests | proved. C114_not_ascii: other characters lose all but their low byte. |
| C115 | The HTTP benchmark counts exactly under every schedule | the threads as lists of atomic steps on shared counters, the report, the arguments, the warm-up | an invariant of the steps: what is counted plus what is to be counted is constant; the shares by induction over the number of threads; the arguments by induction over the list | proved. Each push and each fetch_add is one atomic step. C115_panics: 2^32 successes make the division panic. C115_warmup: -w 0 panics, and the remainder by ten is dropped. C115_concurrent_ignored: -c has no effect. |
| C116 | The benchmark of the TCP client measures the request asked for, and its figures are exact | the arguments, the tally, the statistics and the percentiles of the benchmark mode | simulation of the two argument loops by induction; the doubles are exact integers below 2^53; a double below a whole number is below it by a 2^53rd part, so the product with the rounded share never falls short of the place | proved. The place of a percentile is computed in doubles (0.95 and 0.99 are not exact): shown equal to the exact place for up to 2^40 latencies. C116_server_times: if no server time is positive, their average is NaN. C116_failures: zero iterations end with "All requests failed!". |
| C117 | Variables and lambda parameters can be renamed | renaming as a map on expressions, the names lambdas bind as those given or the defaults | a relation between the variables before and after is kept through every evaluator by induction on the expression, loops by induction on the array; the parameter theorems from the same induction with the relation that ignores the two names | proved. The parameter theorems are about FILTER, FIND, MAP and REDUCE where the new evaluator runs them and about the methods; inside a method's arguments, with custom functions, the name given to MAP is ignored (C117_ignored_name). C117_capture and C117_computed_name show why the names bound by lambdas must stay and be written as texts: MAP([1, 2], :y) with y renamed to x means something else, and a parameter's name may itself be read from a variable. |
| C118 | Programs can be run piece by piece, reordered and cleared of what is not used | programs as lists of statements, texts by the spelling relation of C03 | spelling is closed under joining with a semicolon, by induction on the tokens; runs of joined lists by induction; the rest from coincidence (C09) and commuting insertions | proved. Texts are those of programs (C03), not ending in a dot: `1.` next to a semicolon is read differently (C118_dot). C118_exchange_failures and C118_unused_failure show what the conditions are for. |
| C119 | The function files are a map from names to code, over every history of requests | the endpoints over a file system and the decoding of JSON trees into requests; an abstract store with its own rules as specification | simulation: each request moves the store as the rules say and keeps the directory ready, by cases on the event; histories by induction | proved. For a function directory that is there and holds no directory with the name of a function file, writes that succeed, names without a slash (C56 shows what others do), and code whose example does not panic. Reading a body text into a JSON tree is external (Reads). |
| C120 | Giving more variables cannot change a result that was found without them | both evaluators over variable maps | logical relation between the two runs: equal, or the first is the error for an added variable; induction over expressions and over programs | partial: False where failures are not reported, shown by witnesses: SUMIF([1, 2, 3], :x) is 0, but 2 when x = 2 is given; in a method argument REDUCE(..., :p, "acc") uses x when p is missing. Proved for expressions in which the criterion of SUMIF and the names of REDUCE read none of the added variables. |
| C121 | Custom functions with effects are called once per call, in order, and not after a failure | both evaluators once more, with a world of any type passed along as the code runs | the places that call custom functions are read off the expression; a predicate on computations (calls made are a prefix of the listed ones, all of them on success) closed under sequencing; induction over expressions; functions without effects: the evaluators commute with the embedding of results | partial: C121_runs: for every expression, registry and variables, the sequence of calls is one that a grammar read off the expression allows (Spec/EffectRuns.lean): arguments in order, then the function, nothing after a failure, one branch of a conditional, lambdas of methods once per element. C121_lambda, C121_reduce and C121_find: how many times, for every lambda. The theorems ending in _partial give exact lists for simpler expressions. False for SUMIF, shown by a witness: SUMIF([], G()) calls G and drops its failure. Both sides of && and \|\| are always run. |
| C122 | The health report of the HTTP server counts what was asked of it | the report, and the server with its counters, around the model of the HTTP server | every endpoint leaves the cache, clears it, or evaluates; induction over the history; an invariant of the cache's numbers; rounding lemmas for the rate | proved. Requests one after the other; C52 and C88 are about the interleavings of cache accesses and counters. total_saved_time_ms is C144; the evictions shown are wrong (C52). |
| C123 | Calls on arrays can be rewritten by the usual laws | the evaluator as it is | the closed forms of the loops (C17, C22, C38) and induction over the array | proved. The laws of counting, filtering and summing hold for failures too; those of REVERSE and of two MAPs for values, as failures may come from different elements (C123_conditions, which also shows why SUMIF needs arrays without inner arrays and FIND a FILTER that succeeds). |
| C124 | What a server says when it is started is true, and never shows a token | the lines printed before the accept loop, the exit status and the server, as a function of the words and of what the machine answers | case analysis; the argument loops against the lines of C92; the non-dependence on tokens by comparing the two runs | partial: The warning: for tokens that are not empty. False for an empty token (C124_empty_token: "token auth: enabled", no warning, everything open). Also false, by witnesses: in the background the terminal and the status are the same when the port is taken (C124_daemon_silent); sk_server never warns that it is unprotected (C124_tcp_no_warning); with 0 threads it says it has started and is ready, and panics (C124_tcp_no_threads). |
| C125 | Who does not have a token learns nothing about it | the servers of C110, C122 and C61 | the tokens are read in the checks only, and a check with a token that is not carried refuses; induction over histories, with the lines still to be answered as invariant | proved. Answers and state, not the time they take: the comparison of tokens is an ordinary string comparison. Assumes that lower-casing non-ASCII texts makes no header name appear (as in C54). |
| C126 | Every reply of the HTTP server says what happened | all handlers once more, with the documents and texts they send and the bytes of a message | a relation between the handlers of C110 and these, kept by every construct; the finiteness of the variables kept in the cache and the counter as invariants of histories | partial: Fails by witnesses in three places: a reload counts two files with functions of one name twice, and says 0 when it stopped after registering some (C126_reload_counts); a function that fails its own example is "uploaded and validated successfully" (C126_failed_example_success); a request that is too large is answered with status 400 and the text 413 (C126_not_413). The text of a document is the printing of serde_json, which is a parameter. |
| C127 | JSON texts are read and written as the standard says | the grammar of RFC 8259 as inductive relations; the writing and the recursive descent with a bound of the nesting as functions | the parser gives what the grammar says and nothing else, by induction on the derivation and on the run; a text of the grammar for everything written; then C42 and C44 without their hypotheses about the library | partial: A model of the JSON library, which is not in the repository, from its documentation. Writing and reading of doubles is a parameter; that a double is read back as it was written is a hypothesis (FloatBack), since serde_json without the feature float_roundtrip does not promise it; C138 shows for which numbers it holds and that it fails for others. Fails for values nested deeper than 126 (C127_through_object). |
| C128 | What the client shows is what the expression is worth at the server | requests and responses as trees, their texts with the model of JSON texts, and the derived readers of both programs, with unknown members, missing members and repeated members | printing and parsing are inverse on trees with members in any order (C127); the reader of a request finds each field; then with C87, C61 and the meaning of an expression (C106) from the arguments of the client to what it prints | partial: Fails for documents nested deeper than what the reader of JSON allows once they are inside a request: variables nested more than 125 deep, which the client takes, are called an invalid request (C128_too_deep), and results nested more than 126 deep are lost by the client (last part of C128_reply). That doubles are read back as they were written is a hypothesis (FloatBack), as for C127; C138 proves it for numbers of up to 15 digits and whole numbers up to 1801439850948198. |
| C129 | What an HTTP client is told is what the expression is worth, from bytes to bytes | the reader of a connection (C58), the router and the handler (C126), with the bodies read from texts by the model of JSON texts instead of an abstract decoder | the reader gives the handler the request (C58); the text is the tree it was written for (C127), the tree is the request (C104); the variables are those of the object in any order (C70); the response is framed and announced (C126) and its body is the text of the document (C127) | partial: Missing: names of variables must consist of letters and digits and the expression must not mention :arguments, since the server changes the one and defines the other (C70); reported variables are not asked for (C60); values are nested at most 125 deep, since a JSON reader refuses deeper responses. That doubles are read back as they were written is a hypothesis (FloatBack), as for C127; C138 proves it for numbers of up to 15 digits and whole numbers up to 1801439850948198. |
| C130 | The benchmark counts exactly the evaluations that succeed | the requests as written to the socket, the server behind its reader (C58, C126, C129), and the search of the response for the text that says success | the request arrives as the evaluation meant (C58, C104, C114, C129); the message of an error is escaped, and no escaped text, number or header completes the text looked for; induction over the requests with the store kept empty by failures | partial: False of the code as stated for expressions in bodies: quotes and backslashes are not escaped (C130_quotes: a request that would succeed is not counted) and `{}` is replaced by the host (C130_braces: a failure is counted as a success); hence the hypotheses of C130_json. In the path, expressions are ASCII (C114). The server handles the requests in turn and has no token. That the number of milliseconds is written as a number is a hypothesis (FloatBack), as for C127. |
| C131 | The comments in a file say which function it defines | the loop over the lines of a file with what it has found so far | each line is about at most one key; the loop keeps the last value for each (induction over the lines); the lines of `str::lines` are those between newlines up to white space | proved. C131_anywhere: a line inside a text of the program counts as well, an empty name is accepted, and so is a limit below the fewest arguments. The description is not modelled. |
| C132 | A function that is uploaded and loaded is the one evaluations call | the server's files, registered functions, stored results and counter under a history of requests; the evaluation from bytes to bytes | the file store under histories (C119), what a file defines (C131), induction over the registrations of a reload, the clearing (C110), calls of registered functions (C21) and the exchange of bytes (C129) | proved. What the JavaScript code computes is a parameter (JavaScript is not modelled), and so is the order of directory entries. That no other file defines a function of the same name is a hypothesis: otherwise the order of the directory decides. Without the clearing, results stored before can still be sent (C50_registry_stale); a deleted function stays callable (C57). Requests come one after the other (C107 for several at a time). |
| C133 | The null-safe idioms of the guide work on every value | the texts of the guide through the lexer, the parser and the evaluator | evaluation of the parsed tree with arbitrary values; induction over the array for `map` and `filter` | partial: `C133_safe_chain_fails`: the filter recommended for "ultimate null safety", `:data.filter(:x&.date&.to_s().length() > 0)`, fails as soon as one date is null, because `&.to_s()` of null is null and not the empty text; `C133_safe_chain` says what it does otherwise. That a document has a date is stated by what the JSON library reads in it (`Spec.DateIs`). |
| C134 | An object written in an expression is the document with its members | object literals, property access, `keys` and `values` in the evaluator; the sorted map of the JSON library | induction over the members; a sorted list of members is determined by what it has for each name; permutations | proved. The JSON library is a parameter that reads back what it wrote in `C134_member` and `C134_keys_values`, and the model of it (C127) in `C134_plain`; which numbers it reads back is C138. `C134_written_order_wrong`: the reference shows `{"name": ..., "age": ...}.keys()` as `["name", "age"]`; it is `["age", "name"]`. |
| C135 | Functions, operators and methods work as the reference says | the texts and calls of the reference through the parser and the evaluator | evaluation with arbitrary values | partial: The property is false in each of these points; the theorems say what the code does instead, for all arguments. The rest of the reference is the subject of the properties on the functions (C30 to C90, C111). `XOR` with other than two arguments fails (C36), `{...}.keys()` is sorted (C134), text after a complete expression is dropped in general (C05). |
| C136 | Queries over the JSON input give what the path leads to | a specification of the steps and of what they select; the library as a parameter that follows it | induction on the steps; the results of C38 and C108 for the aggregates and for DIG | partial: What a path selects is defined in Spec/JsonPath.lean after RFC 9535, for the steps that the documentation uses; that the library `jsonpath-rust` selects this is the assumption `Follows`, which C136_follows shows can be met. The last two claims of the property are false: C136_single_wrong and C136_tcp_wrong. |
| C137 | Numbers keep their values through texts | decimal numbers, shortest ones, the layouts of {}, {:?}, {:.k} and of ryu, independent of the model | a grid argument: of the decimals with n digits only the two neighbours of the double count, and rounding is monotone; then the parser on each layout | partial: Rust's formatting is specified in Spec/NumText.lean as its documentation says: the shortest decimal that is read as the double, the nearest of those (`Std`); C137_exists shows that every double has one, so the assumption can be met. Reading is the model's own correctly rounded parser (C06). Partial because the JSON part assumes correct rounding when serde_json reads (`JsonStd`), which needs its feature float_roundtrip; Cargo.toml does not turn it on: what happens without it is C138. C137_tenth gives the texts of 0.1 and of 0.1 + 0.2; C137_minus_zero is the exception -0. |
| C138 | What JSON does to numbers | the reader of numbers of serde_json: digits into 64 bits, then one multiplication or division by a power of ten | a number of at most 53 bits and a power of ten up to 22 are exact, so one correctly rounded operation gives the nearest double; 15 digits determine a decimal within a double's spacing; in general the errors of three roundings add up | partial: Partial because numbers do not always survive, which a user would expect: `100 * 1.1` is not 110, but read out of an object it is (C138_changed); the first whole number beyond the bound becomes a fraction (C138_whole_changed); and `:x == 110.00000000000001` is false for {"x": 110.00000000000001} (C138_variable). Cargo.toml asks for serde_json without its feature float_roundtrip; Cargo.lock names the version, 1.0.149. Its reader is modelled from knowledge of that version, since its source is not in the repository; that no other dependency (jsonpath-rust, scalar-doc, tera) turns the feature on is assumed. Writing is the shortest decimal, as in C137. Of numbers below 10^-290 (texts below 10^-288) only C138_short speaks, and of texts of 2^29 characters or more nothing. |
| C139 | The JSON that the tools print | the layout, level by level; a function that removes the whitespace between the parts of a JSON text | induction on documents: the text is in the grammar of RFC 8259 (Spec/JsonText), and without whitespace it is the compact text; then C127 and C128 | proved. The layout of serde_json::to_string_pretty is modelled from its documentation. `Ordinary` asks that numbers are read back by the reader (all are by one that rounds correctly, C137; for serde_json itself see C138), that dates are integers of 64 bits and documents nested at most 124 deep. Arrays inside of arrays are printed as debug texts (C89). The time is any text. The benchmark's report is not modelled. |
| C140 | Expressions take no more room than their text | number of nodes and depth of a tree; texts of four families, for every n | from C05: an accepted text spells the tokens of its tree and every token has a character; induction on trees. Families: C03 gives the tree of the text, induction on n its value | partial: Proved for trees, for every text. False for values: nested MAPs of 11n+1 characters, or n assignments of 12 characters each, give a value with 2^n numbers, for every n (C140_maps, C140_doublings), so no power of the length bounds it (C140_no_bound). Depth can be as large as the length of the text (C140_deep) and parentheses are accepted at any depth (C140_parens): neither the parser nor the evaluator has a limit. The stack is the subject of C146 and C147; the code recurses at least once per level, so a text that is long enough overflows it. |
| C141 | Evaluating while functions are registered | the evaluators with the registry found at each look, any sequence of registries | a relation between the two evaluators: what was found agrees with the registry, and a bound on what was found about the functions that change; induction on expressions, loops over any list | partial: Functions that are not called do not matter (C141_unaffected). If the functions that change are called at one place outside lambdas, the result is that of one of the registries found (C141_one_place). A call of a custom function is evaluated with one registry, arguments included, since the read guard is held (C141_call). Beyond this the claim is false: the registry is read anew at each call, so [F(), F()] or one lambda that calls F may mix an old and a new F and give a result that no registry gives (C141_not_atomic, C141_lambda). The order in which the lock admits readers and writers is any; deadlocks are C47's. |
| C142 | httpGet gives the page and asks for nothing else | the command run and the text given, for any computer | the command line of curl as specified from its manual; UTF-8 decoding of an encoded text | partial: For URLs that do not begin with a dash and have no braces or brackets, one curl runs with that URL and the page is given, or a text that begins with 'HTTP error: ' (C142_page); no shell sees the URL, whatever it is (C142_run). Three parts are false: every text of a failure is also the text of a page, and pages with an error status are pages (C142_failure_hidden); a URL with a list in braces asks for several URLs (C142_braces); a URL that begins with a dash is an option of curl (C142_dash). curl is specified after its manual, the JavaScript engine is not modelled. |
| C143 | Rates of reuse and of hits | the two rates as floats over the counters | both roundings bounded, order kept by rounding; invariants over histories | proved. Within 2^-45 of the exact percentage; 100 only if all, which never happens since the first context is made and what is cached was once missed. Beyond 2^53 counted operations nothing is said. |
| C144 | Time saved by the evaluation cache | the cache of C51 with the times kept beside it | invariant: what is kept or waits to be stored was evaluated in the time kept with it; induction on histories | proved. Sums are sums of floats in the order of the hits; C98 bounds their error. What is saved is what the first evaluation took, not what a second one would have taken. |
| C145 | The published description of the HTTP interface | openapi.yml as data: schemas, operations, answers; the replies of C126 | case analysis over the routes; conformance of each document | partial: False as stated, in thirteen ways, each with a request that shows it (C145_departures): 401 and 500 are undocumented for most operations, and the 400 for a body that cannot be read is another document than described. With these, and with null taken for an absent member, the description is complete (C145_answers_partial). 413 and the 404 of a deletion are never sent; a missing file gives 500. Every 200 of seven operations has "error": null, which OpenAPI 3.0 does not allow without nullable. That what openapi.yml says of examples and of prose is true is not stated. |
| C146 | Stack needed for parsing | the parser with a second counter, the nested calls that still fit | comparison of the two parsers by induction on the fuel; a measure, the nesting tokens still to be read, for the upper bound; induction on n for the lower | proved. The size of the stack is counted in nested calls of the methods of the parser (parse_expr and parse_assignment as one), all of the same size; calls that do not lead back to the parser are not counted. The stack that evaluation takes is the subject of C147, for which C146_products shows that trees of every depth come out of a parser with a fixed stack. |
| C147 | Stack needed for evaluation | both evaluators with a counter, the nested calls that still fit | comparison with the evaluators of the model by induction on the expression, for a counter of at least the depth; the same induction for the exact need; C140_tree for the bound by the length | proved. The size of the stack is counted in nested calls of the evaluators, all of the same size as those of the parser; the functions between two such calls (a fixed number for each) are not counted, nor is the release of a tree, which recurses too. The copying of values is counted apart (C147_copy), not inside the bounds C147_enough and C147_length, which are about the calls of the parser and the evaluator. |
| C148 | Expressions can be rewritten by the identities of arithmetic, logic and choice | the operators, the ternary and the functions of the evaluator on doubles with signed zeros, infinities and NaN | case analysis on the kinds of doubles, rounding of a negated rational, exactness of rounding on doubles; for choices, the law of a bind over a conditional | proved. Each identity is stated at given variables and custom functions; that such parts may replace each other inside larger expressions is C102. && and \|\| evaluate both operands (C14), so their laws need operands that have values. The last theorem shows by witnesses which identities of real numbers fail for doubles. |
| C149 | Sorting, turning round, removing repetitions and looking at the ends of arrays fit together | the array functions and methods and MIN, MAX as called from expressions | uniqueness of the sorted arrangement under an antisymmetric order, induction for sorting a sorted list and for the loop of UNIQUE | proved. The condition on the zeros is needed, as the last theorem shows; NaN makes the order of sorting unspecified (C28). FIRST and LAST of the empty array fail with different texts, so the equality of the functions is between results. |
| C150 | Calls on texts can be rewritten by the usual laws | the text functions and methods as called from expressions | the characters that each function returns (C32, C33, C76) and laws of lists; induction along the scan of SPLIT | proved. Nested calls are stated with the worth of the inner calls as arguments; that such parts may stand inside expressions is C102. The last theorem shows that the laws of single characters fail for longer parts. |
| C151 | Rounding to whole numbers, absolute values and signs fit together | rounding functions and methods on doubles | case analysis on the kinds of doubles, laws of floor and ceiling of rationals | proved. Results are equal as doubles, so with the sign of zero. That 10 to the power 0 is 1, which ROUND uses, is the only fact about the power function that is assumed. |
| C152 | Adding times, taking differences and reading dates fit together | DATEADD and DATEDIFF in all units | the theorems of C64 and C63, integer division cut towards zero, monotonicity of the day count | proved. Stated on DATEADD and DATEDIFF with the reading functions of the specification of C63; the days counted by the calendar are strictly increasing in year and month, which is proved from the lengths of months. |
| C153 | Calls of the logical functions can be rewritten by the laws of logic | the logical functions on values and the operators on truth values | the meaning of each function from C36, then Boolean algebra | proved. Equations between calls whose arguments are results of calls; arguments are values, so nothing is said here about branches that fail (C13, C14, C112). |
| C154 | Changing the sign of all numbers changes the sign of their statistics | the aggregates as folds over the numbers among the leaves | induction over the numbers; rounding is symmetric; sorting the negated numbers is turning round the sorted ones | proved. MEDIAN of numbers with NaN panics (C40). Sums start from the positive zero, so that zero does not always change its sign. |
| C155 | Lending is borrowing with the other sign | PMT, FV and IPMT in doubles | induction over the rounds of the balance recurrence; rounding is symmetric | proved. The power function is an external function; it is only assumed that its results are doubles. |
| C156 | Slices compose | slices and indexing of arrays, REVERSE, FIRST, LENGTH | closed form of a slice as take and drop from C25 | proved. C156_not_laws shows why n must be positive for bounds from the end, and that a[-1] is not preserved by a slice. |
| C157 | Least, greatest, sums and averages of the parts of a collection | SUM, AVG, MIN and MAX of nested values | attained bounds are unique; rounding is monotone | proved. Results are compared as numbers, so the sign of a zero, which the library leaves open, does not matter. C157_not_laws shows what fails for fractions (AVG(0.1, 0.1, 0.1) is greater than each of them) and for parts without numbers. |

## Findings

Behaviour of the code found while proving, each with a theorem (the negation on a witness) or an example.

Parsing:
* A text whose first token is `==` panics (position arithmetic underflows in a debug build).
* A complete program followed by other tokens is accepted and the rest ignored (`1 2`); a first token that does not lex counts as the end of the input.
* `:x.ok ? 1 : 2` is read as the predicate `ok?` and the branches are dropped.
* `a[:i]` is read as a slice and fails; `:a := :b := 1` leaves `:= 1` unread.
* The position of a single `=` in an error is one too small.

Evaluation:
* `&&`, `||` and `IF` evaluate all operands; only `? :` does not.
* `null == null`, comparison of arrays, currencies, dates and JSON with themselves are all false.
* Assignments below the top level bind nothing.
* Function and method forms run in different evaluators and differ: `BETWEEN`, default accumulator name of `REDUCE`, `REVERSE` of strings, `DIG`, `JQ`, `SUMIF` with text criteria.
* Inside a method's arguments, `evaluate_with_custom` ignores the parameter names given to `FILTER`, `FIND`, `MAP` and `REDUCE` and binds `x` and `acc`.
* Custom functions are unknown in lambdas of function forms, in plain method arguments and in programs with assignments.
* Indices of -2^63 and below panic in a debug build; NaN as an index reads element 0.
* `UNIQUE` drops elements that are not numbers and keeps both zeros. `SORT`, `MEDIAN`, `PERCENTILE`, `QUARTILE` panic on NaN.
* `SPLIT` after `JOIN` loses parts that overlap the separator. `LEFT`/`SUBSTRING` disagree at +inf. `.length()` counts bytes. `CONCAT` silently drops currencies, dates and JSON.
* Functions with a dot in their name (`STDEV.P`) cannot be called from any text.
* After a cast, a further cast, an index, a property or a method call is silently dropped (`:x::int::float`, `:x::array[0]`).
* The median of large numbers overflows to infinity; a percentile of equal numbers can exceed them; `MODE.SNGL` counts the two zeros apart.
* `null.to_json()` is `{}`. A long digit string cast to Integer is infinite. `"abc"::Json` is accepted.
* `XOR` takes two arguments only. `BETWEEN` is unknown as a function.
* `DATEADD` panics outside the supported years and on 32-bit month overflow, wraps month intervals to 32 bits, and replaces a missing day by the 28th. `DATE(NaN, ..)` is in year 0.
* The method `join` writes booleans in lower case and refuses nulls, amounts, dates and documents; `JOIN` does neither.
* `POW` and `SQRT` take everything that is not a number, amounts included, for 0; `^` does not. `SQRT(-1)` is NaN, `(-1).sqrt()` fails.
* `VARP(0.1, 0.1, 0.1)` is not zero.
* `DB` for year 0 (or 1.5) gives the second year; the first year is negative when the salvage value exceeds the cost; with a partial first year the depreciation over the life falls short of cost minus salvage.
* `PERCENTILE_INC(xs, NaN)` is taken for percentile 0.
* `IPMT` is wrong from the second period on.
* `INT(-1.5)` is -2 but `(-1.5).int()` is -1; `FLOOR` of a text is 0 but the method fails; `ROUND(x, -2)` ignores the negative decimals, the method does not.
* `.even?` and `.odd?` look at the number clamped to 64 bits (`1e20.odd?` holds).
* `to_s`, `to_a`, `to_i` and `to_bool` differ from the casts of the same name; `FIRST` and `LAST` of an empty array differ from the methods.
* `runtime::eval` compares numbers only; `runtime::eval_with_assignments` binds nested assignments, the entry point does not.
* JSON keys that agree after sanitizing collide; a member called `arguments` hides the document.

Concurrency and caches:
* `ThreadLocalFunctionCache` is never invalidated.
* A custom function called inside the arguments of another holds two read guards and can deadlock with a registration.
* The response cache ignores `include_variables` in its key, stores results of `NOW()`, outlives changes of custom functions, and its key is ambiguous (`false||TRUE:Null`). Its eviction counter counts replacements, not evictions.

Servers and tools:
* An authorization line in the body counts; with an empty token a request without a header passes.
* Uploads can leave the hooks directory (`..`, absolute names). A function whose example fails is saved. Deleted functions stay registered.
* Multipart contents lose surrounding white space, trailing dashes and text that looks like the boundary; names are cut at `:` and `;`; a lone quote panics.
* A variable assigned its old value is not reported; an answer from the cache reports no variables.
* Bytes after the announced body are part of the request or not depending on how they arrive; a truncated body is processed when the client closes early.
* TCP: a line whose evaluation panics, or that is not UTF-8, ends the connection. An empty token passes. Nested arrays are sent as debug text. Variable names are not sanitized and there is no `arguments` variable, unlike in the other front ends.
* `sk`: a lone quote panics; `--json` discards `var=value`; invalid JSON exits with 1 for programs and with 2 for expressions; `nan` and `inf` are read as numbers.
* `sk_client` reads `TRUE` and `[a]` as texts and `inf`/`nan` as 0 where `sk` reads a boolean, an array and a number; a lone quote panics; `--json` drops `var=value`.
* A statistics report during a request can show a count without its time, or a time without its count.
* Answers: amounts become numbers, dates texts, non-finite numbers null; the TCP server sends inner arrays as debug text, and dates in arrays of the structured form as numbers where the HTTP server sends texts.
* JavaScript functions get amounts and dates as numbers and documents as texts.
* Error positions: with a leading `=` they count from after it; an `=` in the wrong place is reported one byte early; an unknown character at the start is reported as an empty text.
* `--log-file --token` on the command line of a server runs it without a token; `sk_server 5074 0` panics.
* The HTTP server drops accepted and running requests when it is stopped. The TCP server reads without a time limit: as many idle clients as it has workers block all others, and its shutdown.
* `.sum()`, `.avg()`, `.min()` and `.max()` refuse inner arrays and texts that `SUM`, `AVG`, `MIN` and `MAX` enter or skip; of an empty array `MIN` is 0 and `.min()` null.
* Amounts of money are accepted by `SUM` and the other aggregates but not by `+ - * /` ("Arithmetic op on non-number").
* Files of functions are written without a lock and in place: two uploads at the same time can leave a mixture of both, a crash a beginning, which may load as a function that was never sent; an update can undo a deletion that was confirmed.
* An upload named `.js` is accepted and saved, answered with 200, but never listed and never loaded: `Path::extension` of such a name is empty.
* The average of equal numbers can exceed them: `AVG(0.1, 0.1, 0.1)` is greater than `0.1`.
* `ROUND(2.675, 2)` is 2.68 although the double 2.675 is nearer to 2.67.
* A variable of the query of `GET /eval` whose text is `inf`, `nan` or `Infinity` arrives as null; names of parameters are not percent-decoded.
* Daemon mode: `daemonize` closes descriptor 0 again when the `File` of `/dev/null` goes out of scope (it had got number 0), so the next file or socket opened becomes the standard input. The command ends with status 0 before the port is bound: a second start for the same port ends unnoticed, after it has put its own number in the file of the running server. The file is never removed.
* `JQ` gives the value itself, not an array, when its path selects one node: `MAP(JQ(...), ...)` works for none or several matches and fails for one.
* `sk_http_bench`: `-w 0` panics (division by zero); a warm-up of more than ten requests drops the remainder by ten; `-c` has no effect; characters outside ASCII are encoded by their low byte, so `é` arrives as a missing expression.
* `sk_client --benchmark`: zero iterations end with "All requests failed!"; if no time given by the server is positive, the averages printed are NaN.
* A variable that is given can change an expression that worked without it: `SUMIF([1, 2, 3], :x)` is 0, and 2 with `x = 2`. In a method argument a name of `REDUCE` whose variable is missing is read as `x` instead of being reported.
* `SUMIF` runs its criterion once before looking at the elements, with the custom functions, and drops its failure: `SUMIF([], G())` calls `G` and gives 0. `&&` and `||` always run both sides.
* `--token ""` gives "Eval token auth: enabled" without a warning, and every request without a header passes. `sk_server` never warns that it runs without a token; `sk_server 8080 0` says that it has started and is ready, and panics.
* Replies of the HTTP server: a request that is too large gets the status line "400 Bad Request" and the text "413 Payload Too Large"; on Linux a read that times out is `WouldBlock`, so the text is "500 …" and not "408 …". `functions_loaded` counts files, not functions, and is 0 after a reload that failed half way. An upload that fails its own example is "validated successfully".
* A value whose arrays are nested more than 126 deep can be put into an object but not read out again (serde_json refuses more than 127 brackets and braces); and without its feature `float_roundtrip` the library does not promise that a double is read back as it was written.
* A request of the client whose variables are nested more than 125 deep is called invalid by the server, although `--json` accepts a document of 127 levels; a result nested more than 126 deep is evaluated and then reported by the client as a connection error (C128).
* The benchmark's part "Range operations" never succeeds: there is no function `RANGE`. Its JSON requests do not escape the expression, and `{}` in an expression is replaced by the host, so that a failing expression can be counted as a success (C130).
* A `;` or `:=` between quotes makes the command-line tool and the servers take an expression for a program, which knows no custom functions: `[F(), ";"]` is "Unknown function: F" (C20).
* The comments that define a function are looked for in the whole file, in texts of the program as well; a file with an empty name or with a limit below the fewest arguments is accepted, and then makes every reload stop half way (C131, C126).
* The filter that the guide recommends for "ultimate null safety", `:data.filter(:x&.date&.to_s().length() > 0)`, fails as soon as one date is null (C133).
* `keys()` of an object literal gives the names in alphabetical order, not in the order the reference shows (C134).
* The reference documents much that does not exist or works differently, for all arguments: `AND`, `OR` and `as` as infix words are ignored together with what follows; `COUNT` counts all elements of one array; `INT` of a negative number is one less than its integer part; `LEN`, `COMPACT` and `BETWEEN` do not exist; `TIME` ignores its arguments; `DATEADD` and `DATEDIFF` require a unit; a text is not cast to its characters; `.positive()` and its like need the question mark; `x > 3` without a colon is a syntax error; members of elements are not variables (C135).
* The examples of the server guide that query `:arguments` fail at the line server on all data: it binds the members but not the document (C136).
* Minus zero shows: `(0 * -1).to_s()` is "-0" (C137).
* Numbers with 16 or 17 digits can change when they pass through JSON (objects, `to_json`, variables, requests, replies), since serde_json is used without `float_roundtrip`: `{a: 100 * 1.1}.a` is 110 though `100 * 1.1` is not, and `{a: 1801439850948199}.a` ends in .25 (C138).
* Nothing limits the size of results or the nesting of expressions: nested `MAP`s of 11n + 1 characters, or n short assignments, give 2^n numbers, and signs or parentheses are parsed and evaluated recursively at any depth, so a short request can take all memory and a long one overflows the stack of the server: every pair of parentheses takes thirteen nested calls, and an exhausted stack ends the process (C140, C146).
* An evaluation is not atomic when functions are registered or reloaded at the same time: the registry is read at each call, so one evaluation may use an old and a new version of a function, or some functions from before a reload and some from after it (C141).
* `httpGet(url)` passes the URL to `curl` as a word that may be an option: `httpGet("-o/some/file")` or `httpGet("-K/some/file")` are options of `curl`, and `{a,b}` in a URL asks for two pages (`--` and `--globoff` are missing). Failures are given as text that a page may have too (C142).
* `openapi.yml` and the server differ: 401 is undocumented for `GET /eval`, `PUT /update-js`, `DELETE /delete-js`, `POST /reload-hooks` and `DELETE /cache`, 500 for all that store, list or reload; deleting a file that is not there gives 500, not 404; 413 is never sent; unreadable bodies get a document without the required `message`; members are null that may only be absent (C145).
* No stack is large enough for every expression: a one in n pairs of parentheses takes 13(n + 1) nested calls of the parser (C146), and `1*1*…*1`, which does not nest at all, n + 1 of the evaluator (C147). Data can do it without a long text: `REDUCE(:xs,[:acc],1)` makes of a flat array of n elements a value nested n deep, and the derived `clone` recurses through it at every use of the variable (C147). An exhausted stack ends the whole process, not the request.
