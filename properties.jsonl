{"id": "C01", "title": "Parsing any text terminates with an expression or an error", "statement": "For every input string, parse() finishes and returns either Ok(expression) or Err(error); it never loops forever.", "quantifier": "every input string, of any length and nesting", "why_tests_cant": "The grammar is recursive and the lexer/parser loops are driven by the input; only an argument over all strings (each loop consumes a token) rules out a hang.", "anchors": ["src/parser.rs:Parser::parse", "src/parser.rs:Parser::parse_postfix", "src/lexer.rs:Lexer::next_token", "src/lib.rs:parse"]}
{"id": "C02", "title": "Parsing never panics", "statement": "For every input string, parse() does not panic (no arithmetic underflow, no out-of-range slice). Expected: the only outcomes are Ok and Err.", "quantifier": "every input string", "why_tests_cant": "A panic is triggered by a specific byte at a specific offset; a fuzzer may or may not hit it, a proof covers all offsets.", "anchors": ["src/lexer.rs:Lexer::next_token (last_start = pos - 2)", "src/lib.rs:parse"]}
{"id": "C03", "title": "Printing an expression and parsing it gives the expression back", "statement": "Writing an expression tree out with the documented precedence and associativity (ternary < || < && < equality < relational < additive < multiplicative < unary < power (right assoc.) < cast < postfix), using parentheses only where precedence requires them, and parsing the text yields exactly that tree, with every token consumed.", "quantifier": "every expression tree of the language (any depth)", "why_tests_cant": "Precedence bugs depend on the combination and nesting of operators; the space of trees is infinite.", "anchors": ["src/parser.rs:parse_ternary..parse_postfix", "src/parser.rs:parse_power", "src/parser.rs:parse_unary"]}
{"id": "C04", "title": "Whitespace between tokens is insignificant", "statement": "Inserting or removing spaces, tabs, CR or LF before tokens (where it does not split or glue tokens) does not change the parsed expression; a leading '=' after optional whitespace does not either.", "quantifier": "every token sequence and every choice of whitespace before each token", "why_tests_cant": "All whitespace layouts of all programs.", "anchors": ["src/lexer.rs:skip_ws", "src/lib.rs:parse"]}
{"id": "C05", "title": "All of the input is parsed or the input is rejected", "statement": "If parse(s) succeeds then every token of s is part of the resulting program (text after the program is an error, never silently dropped). Likewise an invalid first token is reported as that lexing error.", "quantifier": "every input string", "why_tests_cant": "Silent truncation produces a plausible value on every test that does not look at the dropped tail.", "anchors": ["src/parser.rs:Parser::parse (no Eof check)", "src/parser.rs:Parser::new (unwrap_or(Eof))"]}
{"id": "C06", "title": "Numeric literals denote the correctly rounded double", "statement": "The value of a numeric literal is the IEEE-754 double nearest to its decimal text; in particular the fast path for up to ten digits agrees with the general decimal conversion.", "quantifier": "every digit string with at most one decimal point", "why_tests_cant": "There are unboundedly many literals and the two code paths must agree on all of them.", "anchors": ["src/lexer.rs:Lexer::number"]}
{"id": "C07", "title": "String literals are transparent", "statement": "For every string s, the literal obtained by quoting s with backslash escapes evaluates to exactly the string s, for both quote characters and for any Unicode content.", "quantifier": "every string", "why_tests_cant": "Escaping bugs show up only for particular character combinations.", "anchors": ["src/lexer.rs:Lexer::string"]}
{"id": "C08", "title": "Names: functions and keywords are case-insensitive, variables are case-sensitive", "statement": "Changing the ASCII case of a function name, a method name or TRUE/FALSE/NULL does not change the parsed expression; the spelling of a variable is preserved exactly.", "quantifier": "every identifier and every recasing of it", "why_tests_cant": "All identifiers, all recasings.", "anchors": ["src/parser.rs:parse_atom (to_uppercase)", "src/parser.rs:parse_postfix (to_lowercase)", "src/lexer.rs:identifier"]}
{"id": "C09", "title": "A result depends only on the variables the expression mentions", "statement": "If two variable maps agree on every variable name occurring in the expression (plus the names bound by lambdas cannot leak), evaluation gives the same value or the same error.", "quantifier": "every expression, every pair of variable maps, every registry", "why_tests_cant": "Quantifies over all expressions and all environments; a hidden dependency (e.g. a leaked lambda parameter) shows only for specific name clashes.", "anchors": ["src/runtime/evaluator.rs:Evaluator::eval", "src/runtime/evaluation/core.rs", "src/runtime/method_calls/"]}
{"id": "C10", "title": "The public entry points agree", "statement": "evaluate(s) equals evaluate_with(s, {}) , evaluate_with_custom with an empty registry equals evaluate_with, and evaluate_with_assignments equals evaluate_with for programs without assignments.", "quantifier": "every program and every variable map", "why_tests_cant": "The entry points go through different contexts and (for methods) a second evaluator; agreement must hold for every program.", "anchors": ["src/lib.rs:evaluate", "src/lib.rs:evaluate_with", "src/lib.rs:evaluate_with_custom", "src/lib.rs:evaluate_with_assignments", "src/runtime/evaluator.rs:EvaluationContext"]}
{"id": "C11", "title": "Assignment semantics", "statement": "Running 'e1; e2; ...; en' evaluates the statements left to right; ':v := e' binds v to the value of e in the environment left by the earlier statements, returns that value, and changes no other variable; the final value is that of the last statement and the first error aborts the program.", "quantifier": "every program, every initial variable map", "why_tests_cant": "A claim about every history of statements.", "anchors": ["src/runtime/evaluator.rs:eval_with_assignments_context", "src/runtime/evaluator.rs:eval_with_assignments_and_context"]}
{"id": "C12", "title": "Assignments nested inside other expressions", "statement": "An assignment performed anywhere in a program is visible to the statements after it (the language presents ':v := e' as an expression).", "quantifier": "every program with an assignment below the top level", "why_tests_cant": "Depends on the position of the assignment in an arbitrary tree.", "anchors": ["src/runtime/evaluator.rs:Evaluator::eval (Expr::Assignment)", "src/runtime/evaluator.rs:eval_with_assignments_context"]}
{"id": "C13", "title": "The ternary evaluates only the branch taken", "statement": "c ? a : b evaluates c and then exactly one of a, b; the other branch's errors (or custom-function calls) never surface. A non-boolean condition is an error.", "quantifier": "every condition and branches, every environment", "why_tests_cant": "All expressions in the untaken branch.", "anchors": ["src/runtime/evaluator.rs:eval_function_call (__TERNARY__)"]}
{"id": "C14", "title": "&& and || short-circuit", "statement": "false && e is false and true || e is true whatever e is (the usual reading of && and ||).", "quantifier": "every right operand, including failing ones", "why_tests_cant": "Every right operand.", "anchors": ["src/runtime/evaluator.rs:Evaluator::eval (Expr::Binary)", "src/runtime/evaluator.rs:eval_binary_op"]}
{"id": "C15", "title": "Comparison operators are coherent", "statement": "a != b is the negation of a == b; a > b is b < a and a >= b is b <= a; a <= b iff a < b or a == b (for numbers that are not NaN and for strings); for booleans and mixed types no order holds.", "quantifier": "every pair of values", "why_tests_cant": "All pairs of values including NaN, infinities, signed zeros and all strings.", "anchors": ["src/runtime/evaluator.rs:eval_binary_op"]}
{"id": "C16", "title": "Equality is reflexive", "statement": "e == e is true for every expression that evaluates to a value.", "quantifier": "every value", "why_tests_cant": "Needs every value type, not samples.", "anchors": ["src/runtime/evaluator.rs:eval_binary_op (fall-through arm)"]}
{"id": "C17", "title": "FILTER / FIND / MAP / REDUCE / COUNTIF compute their mathematical definitions", "statement": "FILTER returns in order exactly the elements whose lambda is true, FIND the first of them (or null), MAP the list of lambda results, REDUCE the left fold, COUNTIF the number of matches; each element's lambda sees the outer variables with only the parameter(s) rebound; the first failing lambda aborts.", "quantifier": "every array, every lambda expression, every environment, every parameter name", "why_tests_cant": "All arrays, lambdas and name clashes.", "anchors": ["src/runtime/evaluator.rs:eval_filter", "src/runtime/evaluator.rs:eval_find", "src/runtime/evaluator.rs:eval_map", "src/runtime/evaluator.rs:eval_reduce", "src/runtime/evaluator.rs:eval_countif"]}
{"id": "C18", "title": "Lambda parameters do not leak", "statement": "After a higher-order call the caller's variables are unchanged, and the lambda of element i+1 does not see anything from element i.", "quantifier": "every array, lambda, environment", "why_tests_cant": "All nestings and shadowings.", "anchors": ["src/runtime/evaluator.rs:eval_filter (env reuse)", "src/runtime/evaluator.rs:VariableContext::into_variables"]}
{"id": "C19", "title": "Higher-order function and method forms agree", "statement": "FILTER(a, e), MAP(a, e), FIND(a, e), REDUCE(a, e, i) equal a.filter(e), a.map(e), a.find(e), a.reduce(e, i).", "quantifier": "every array, lambda, environment", "why_tests_cant": "The two forms run in two different evaluators; only a comparison over all lambdas can show they agree or where they differ.", "anchors": ["src/runtime/evaluator.rs:eval_map", "src/runtime/method_calls/lambda_methods.rs", "src/runtime/evaluation/core.rs"]}
{"id": "C20", "title": "Custom functions are available wherever the expression is evaluated with them", "statement": "If a custom function f is registered, a call to f evaluates its arguments and runs f, wherever the call appears in an expression evaluated with custom-function support - including inside lambdas and in assignment programs served by the HTTP/TCP servers.", "quantifier": "every program containing a custom call, every position of the call", "why_tests_cant": "Depends on the syntactic position of the call in arbitrary programs.", "anchors": ["src/runtime/evaluator.rs:eval_function_call", "src/runtime/evaluator.rs:VariableContext::with_owned", "src/runtime/evaluator.rs:eval_with_assignments"]}
{"id": "C21", "title": "A custom function shadows the built-in of the same name and respects its arity", "statement": "With f registered under name N (case-insensitively), N(args) calls f on the left-to-right evaluated, spread-expanded arguments when the count is within [min,max], and is an arity error otherwise; no built-in N is consulted.", "quantifier": "every registry, every argument list", "why_tests_cant": "All registries and argument counts after spreading.", "anchors": ["src/runtime/evaluator.rs:eval_function_call", "src/custom.rs:FunctionRegistry::execute"]}
{"id": "C22", "title": "SUMIF / AVGIF criteria", "statement": "SUMIF(range, criterion[, sum_range]) with a string or numeric criterion adds exactly the numeric elements of sum_range whose corresponding element of range satisfies the criterion ('>=n', '<=n', '<>n', '>n', '<n', '=n', 'n', text); with a lambda it adds the elements for which the lambda is true; AVGIF divides by the number of elements added.", "quantifier": "every range, criterion and sum range", "why_tests_cant": "Prefix-order mistakes ('>=' vs '>') and length mismatches show only for particular criteria and arrays.", "anchors": ["src/runtime/evaluator.rs:eval_sumif", "src/runtime/evaluator.rs:eval_sumif_excel_style", "src/runtime/evaluator.rs:eval_avgif"]}
{"id": "C23", "title": "Safe navigation never fails on null", "statement": "x&.p and x&.m(...) are null when x is null, x&.p is null when the property is missing, and otherwise x&.p equals x.p.", "quantifier": "every target value, property and argument list", "why_tests_cant": "All JSON documents and properties.", "anchors": ["src/runtime/evaluator.rs:eval_property_access", "src/runtime/evaluator.rs:Evaluator::eval (SafeMethodCall)"]}
{"id": "C24", "title": "Indexing: valid indices return the element, everything else is an error, never a panic", "statement": "a[i] for a number i uses its truncation; 0 <= i < len gives element i, -len <= i < 0 gives element len+i, any other i (including NaN, infinities and huge values) gives an 'index out of bounds' error and never a panic or a wrong element.", "quantifier": "every array and every double index", "why_tests_cant": "Boundary values of i64/isize conversion and negation.", "anchors": ["src/runtime/utils.rs:index_array", "src/runtime/utils.rs:clamp_index", "src/runtime/evaluator.rs:Expr::Index"]}
{"id": "C25", "title": "Slicing splits an array", "statement": "a[s:e] is the elements with positions in [s', e') where negative bounds count from the end and bounds are clamped; a[:k] ++ a[k:] = a for every k; the result is empty when s' >= e'.", "quantifier": "every array and every pair of bounds", "why_tests_cant": "All arrays, all bounds incl. negative, fractional, NaN.", "anchors": ["src/runtime/utils.rs:slice_array", "src/runtime/utils.rs:clamp_index"]}
{"id": "C26", "title": "FLATTEN removes all nesting and keeps the leaves in order", "statement": "FLATTEN returns an array with no array element, containing exactly the leaves of its arguments in order, and is idempotent.", "quantifier": "every nested array", "why_tests_cant": "All nestings.", "anchors": ["src/runtime/array.rs:FLATTEN"]}
{"id": "C27", "title": "REVERSE is an involution preserving elements", "statement": "REVERSE(REVERSE(a)) = a for every array and string, and REVERSE keeps length and elements.", "quantifier": "every array / string", "why_tests_cant": "All values.", "anchors": ["src/runtime/array.rs", "src/runtime/string.rs", "src/runtime/method_calls/"]}
{"id": "C28", "title": "SORT returns an ordered permutation", "statement": "SORT(a) contains exactly the elements of a, in non-decreasing order (reversed order for 'DESC'); it never panics.", "quantifier": "every array", "why_tests_cant": "Correctness of a sort over all inputs including NaN and mixed types.", "anchors": ["src/runtime/array.rs:SORT", "src/runtime/method_calls/array_methods.rs:sort"]}
{"id": "C29", "title": "UNIQUE keeps the first occurrence of each element", "statement": "UNIQUE(a) has no duplicates, contains every element of a, keeps the order of first occurrences and is idempotent.", "quantifier": "every array", "why_tests_cant": "All arrays, all value types.", "anchors": ["src/runtime/array.rs:UNIQUE"]}
{"id": "C30", "title": "CONTAINS / IN decide membership", "statement": "CONTAINS(a, v) and IN(a, v) are true iff some element of a equals v.", "quantifier": "every array and value", "why_tests_cant": "All arrays and values.", "anchors": ["src/runtime/array.rs:CONTAINS", "src/runtime/utils.rs:values_equal"]}
{"id": "C31", "title": "JOIN and SPLIT are inverse where they should be", "statement": "SPLIT(JOIN(parts, d), d) gives back the parts when no part contains the (non-empty) delimiter, and JOIN(SPLIT(s, d), d) = s for the method form.", "quantifier": "every list of strings and delimiter", "why_tests_cant": "All strings; overlapping delimiters.", "anchors": ["src/runtime/array.rs:JOIN", "src/runtime/string.rs:SPLIT", "src/runtime/method_calls/string_methods.rs"]}
{"id": "C32", "title": "String slicing functions work on characters and never panic", "statement": "LEFT, RIGHT, MID, SUBSTRING and REPLACE operate on Unicode characters: they return the characters the documentation says for every in-range or out-of-range position, never split a character and never panic. LEFT(s,k) & SUBSTRING(s,k) = s.", "quantifier": "every Unicode string and every numeric position/length", "why_tests_cant": "Byte/char confusion and off-by-one errors only show for particular strings and positions.", "anchors": ["src/runtime/string.rs"]}
{"id": "C33", "title": "CONCAT concatenates", "statement": "CONCAT of strings is their concatenation, is associative with respect to nesting, and LENGTH(CONCAT(a,b)) = LENGTH(a) + LENGTH(b).", "quantifier": "every list of values", "why_tests_cant": "All strings.", "anchors": ["src/runtime/string.rs:CONCAT", "src/runtime/string.rs:LENGTH"]}
{"id": "C34", "title": "LENGTH(s) and s.length() agree", "statement": "The function and the method form return the same number for every string: the number of characters.", "quantifier": "every string", "why_tests_cant": "Only differ on non-ASCII input.", "anchors": ["src/runtime/string.rs:LENGTH", "src/runtime/method_calls/string_methods.rs"]}
{"id": "C35", "title": "A cast yields the requested type or an error", "statement": "Whenever e::T succeeds, the result is a value of type T (and e::T of a value already of type T is that value up to documented conversion); casting twice is the same as casting once.", "quantifier": "every value and every target type", "why_tests_cant": "All values.", "anchors": ["src/runtime/type_casting.rs:cast_value"]}
{"id": "C36", "title": "Logical functions", "statement": "AND/OR/XOR/NOT over booleans compute conjunction / disjunction / parity / negation of all their arguments, with De Morgan duality; IF and IFS select the branch of the first true condition.", "quantifier": "every argument list", "why_tests_cant": "All lists.", "anchors": ["src/runtime/logical.rs"]}
{"id": "C37", "title": "BETWEEN is reachable and is the closed interval test", "statement": "BETWEEN(lo, hi, v) evaluates to lo <= v && v <= hi, and so does v.between(lo, hi).", "quantifier": "every triple of numbers", "why_tests_cant": "Dispatch differs between evaluators and call positions.", "anchors": ["src/runtime/logical.rs:BETWEEN", "src/runtime/function_dispatch.rs"]}
{"id": "C38", "title": "SUM, AVG, MIN and MAX ignore grouping", "statement": "SUM/AVG/MIN/MAX over nested arrays equal the same function applied to the flattened list of numbers; the order of evaluation is left to right.", "quantifier": "every nested argument list", "why_tests_cant": "All nestings.", "anchors": ["src/runtime/arithmetic.rs"]}
{"id": "C39", "title": "MIN and MAX are attained bounds", "statement": "MIN(xs) <= x <= MAX(xs) for every number x of the input, and MIN, MAX are elements of the input when it is non-empty and NaN-free.", "quantifier": "every list of numbers", "why_tests_cant": "All lists, including NaN and signed zero.", "anchors": ["src/runtime/arithmetic.rs:MIN", "src/runtime/arithmetic.rs:MAX"]}
{"id": "C40", "title": "Order statistics", "statement": "MEDIAN, PERCENTILE.INC and QUARTILE.INC are invariant under permuting the input, lie between MIN and MAX, agree with one another at the quartiles, and never panic.", "quantifier": "every list of numbers, every percentile", "why_tests_cant": "All lists and percentiles.", "anchors": ["src/runtime/statistical.rs"]}
{"id": "C41", "title": "MODE.SNGL returns a most frequent value", "statement": "The result occurs in the input and no other value occurs more often; ties are broken by first occurrence.", "quantifier": "every list of numbers", "why_tests_cant": "All lists.", "anchors": ["src/runtime/statistical.rs:MODE.SNGL"]}
{"id": "C42", "title": "JSON conversion round trip", "statement": "Converting a value built from null, booleans, finite numbers, strings and arrays to JSON and back yields the same value; objects become Json values denoting the same document.", "quantifier": "every value", "why_tests_cant": "All nestings.", "anchors": ["src/lib.rs:json_to_value", "src/runtime/evaluator.rs:value_to_json"]}
{"id": "C43", "title": "DIG follows the path", "statement": "DIG(json, [k1,...,kn], default) returns the value at the path where strings select object members and numbers select array elements, the default when some step is missing, and agrees with the .dig method and with chained property access.", "quantifier": "every document and path", "why_tests_cant": "All documents and paths.", "anchors": ["src/runtime/json.rs:DIG", "src/runtime/method_calls/mod.rs"]}
{"id": "C44", "title": "JSON variables: every key is readable under its sanitized name", "statement": "evaluate_with_json binds every key of the object under the key with each non-alphanumeric character replaced by '_' and binds 'arguments' to the whole document; distinct keys stay distinguishable.", "quantifier": "every JSON object", "why_tests_cant": "All key sets; collisions.", "anchors": ["src/lib.rs:evaluate_with_json", "src/lib.rs:sanitize_json_key"]}
{"id": "C45", "title": "The function registry behaves like a case-insensitive map under every history", "statement": "After any sequence of register/unregister operations, has_function/list/execute reflect exactly the last successful registration of each name (compared case-insensitively) not followed by an unregister; invalid registrations (empty name, min > max) change nothing.", "quantifier": "every history of registry operations", "why_tests_cant": "All histories.", "anchors": ["src/custom.rs:FunctionRegistry", "src/concurrent_registry.rs"]}
{"id": "C46", "title": "The thread-local function cache never serves a stale function", "statement": "get_function returns the function currently registered under the name.", "quantifier": "every interleaving of registrations, unregistrations, lookups and clears on any number of threads", "why_tests_cant": "All histories.", "anchors": ["src/concurrent_registry.rs:ThreadLocalFunctionCache"]}
{"id": "C47", "title": "Evaluation and registration cannot deadlock", "statement": "If one thread evaluates expressions with custom functions while others register or unregister functions, every thread eventually makes progress under every schedule.", "quantifier": "every expression, every schedule of reader and writer threads", "why_tests_cant": "Schedules are not controllable in unit tests.", "anchors": ["src/runtime/evaluator.rs:eval_function_call (registry.read held across argument evaluation)", "src/lib.rs:register_function"]}
{"id": "C48", "title": "Pooled contexts are always handed out empty and the pool is bounded", "statement": "Every context acquired from the pool contains no variable of an earlier user; the pool never holds more than max_size contexts; created + reused equals the number of acquisitions.", "quantifier": "every history of acquire/insert/release", "why_tests_cant": "All histories.", "anchors": ["src/memory_pool.rs:VariableContextPool"]}
{"id": "C49", "title": "Copy-on-write contexts behave like a copied map", "statement": "Reads through the overlay equal reads from a full copy of the base map with the same insertions, and the base is never modified.", "quantifier": "every base map and history of insertions", "why_tests_cant": "All histories.", "anchors": ["src/memory_pool.rs:CowVariableContext"]}
{"id": "C50", "title": "The evaluation cache is transparent", "statement": "A request answered from the cache gets the response it would get from a fresh evaluation.", "quantifier": "every history of requests, registrations, reloads and clock advances", "why_tests_cant": "Histories, key collisions, time.", "anchors": ["src/bin/http_server/cache.rs", "src/bin/http_server/eval.rs"]}
{"id": "C51", "title": "The cache respects its capacity and LRU order", "statement": "The cache never holds more than its capacity, never holds two entries for one key, a get returns the last put for that key unless evicted or cleared, and the evicted entry is the least recently used one.", "quantifier": "every history of get/put/clear", "why_tests_cant": "All histories.", "anchors": ["src/bin/http_server/cache.rs"]}
{"id": "C52", "title": "Cache statistics are truthful", "statement": "hits + misses equals the number of lookups, and the eviction counter equals the number of entries dropped for capacity.", "quantifier": "every history", "why_tests_cant": "All histories.", "anchors": ["src/bin/http_server/cache.rs:get", "src/bin/http_server/cache.rs:put"]}
{"id": "C53", "title": "Cache keys distinguish requests", "statement": "Two requests share a cache key only if they have the same expression and the same variables.", "quantifier": "every pair of requests", "why_tests_cant": "Key collisions exist only for crafted inputs.", "anchors": ["src/bin/http_server/cache.rs:generate_cache_key"]}
{"id": "C54", "title": "Token checks are sound and complete", "statement": "With a configured token t, a request passes iff it carries an Authorization header whose token equals t; with no token configured every request passes.", "quantifier": "every request text and token", "why_tests_cant": "All requests incl. bodies that look like headers, missing headers, empty tokens.", "anchors": ["src/bin/http_server/auth.rs"]}
{"id": "C55", "title": "Every management endpoint is behind the admin token", "statement": "When an admin token is configured, no request that fails the admin check can change the set of JS functions, reload plugins or clear the cache, whatever its method, path and body.", "quantifier": "every request", "why_tests_cant": "All routes and methods.", "anchors": ["src/bin/sk_http_server.rs:handle_request", "src/bin/http_server/js_management.rs", "src/bin/http_server/eval.rs:handle_cache_clear"]}
{"id": "C56", "title": "JS uploads stay inside the hooks directory", "statement": "Upload, update and delete only ever touch files directly inside the configured hooks directory.", "quantifier": "every file name", "why_tests_cant": "Path traversal needs specific names.", "anchors": ["src/bin/http_server/js_management.rs"]}
{"id": "C57", "title": "A saved function has passed validation; deleted functions stop being callable", "statement": "A file is written only if its source passed validation; after a successful delete (and reload) the function can no longer be called.", "quantifier": "every history of upload/update/delete/reload", "why_tests_cant": "Histories.", "anchors": ["src/bin/http_server/js_management.rs", "src/js_plugin.rs:auto_register"]}
{"id": "C58", "title": "HTTP request framing does not depend on packet boundaries", "statement": "The request handed to the router is the same for every way the bytes are split into reads, and no request larger than the limit is accepted.", "quantifier": "every byte stream and every segmentation", "why_tests_cant": "All segmentations.", "anchors": ["src/bin/http_server/utils.rs:read_complete_http_request"]}
{"id": "C59", "title": "Multipart uploads are received unchanged", "statement": "For every file content, the function source received by the upload handler is exactly the uploaded content.", "quantifier": "every file content and boundary", "why_tests_cant": "All contents.", "anchors": ["src/bin/http_server/multipart.rs"]}
{"id": "C60", "title": "Responses carry the caller's variables faithfully", "statement": "With include_variables, the response lists exactly the variables the program assigned or changed (restricted to the selected names), with their final values.", "quantifier": "every program and variable map", "why_tests_cant": "All programs.", "anchors": ["src/bin/http_server/eval.rs"]}
{"id": "C61", "title": "The TCP server answers every line exactly once", "statement": "For each connection, each non-blank input line produces exactly one response line, in order, and request ids are unique across all connections under every interleaving.", "quantifier": "every number of connections, every input, every interleaving", "why_tests_cant": "Interleavings.", "anchors": ["src/bin/sk_server.rs"]}
{"id": "C62", "title": "Command-line values are parsed without panicking", "statement": "The sk tool's key=value parser accepts every argument string without panicking.", "quantifier": "every argument string", "why_tests_cant": "Specific short strings crash.", "anchors": ["src/bin/sk.rs:parse_value"]}
{"id": "C63", "title": "Calendar round trip", "statement": "YEAR/MONTH/DAY of DATE(y,m,d) return y, m, d for every valid calendar date, and DATE rejects every invalid one.", "quantifier": "every date in the supported range", "why_tests_cant": "Leap-year rules over all dates.", "anchors": ["src/runtime/datetime.rs"]}
{"id": "C64", "title": "DATEADD and DATEDIFF are inverse", "statement": "DATEDIFF(d, DATEADD(d, n, unit), unit) = n for seconds, minutes, hours, days (and months/years), and DATEADD never panics.", "quantifier": "every date and every interval", "why_tests_cant": "Month-end clamping and overflow.", "anchors": ["src/runtime/datetime.rs:DATEADD", "src/runtime/datetime.rs:DATEDIFF"]}
{"id": "C65", "title": "Loan identities", "statement": "In exact arithmetic FV(rate, n, PMT(rate, n, pv, fv), pv) = -/+ fv as documented, and the interest parts IPMT(1..n) follow the amortisation recurrence.", "quantifier": "every rate, term and amounts", "why_tests_cant": "Algebraic identities over all reals.", "anchors": ["src/runtime/financial.rs"]}
{"id": "C66", "title": "Evaluation is deterministic for time-free expressions", "statement": "Two evaluations of the same expression with the same variables and registry give the same result, whatever the clock says, unless the expression calls NOW, DATE(), TIME or a custom function.", "quantifier": "every expression not mentioning the clock, every pair of instants", "why_tests_cant": "All expressions.", "anchors": ["src/runtime/evaluator.rs", "src/runtime/datetime.rs"]}
{"id": "C67", "title": "A request read over a reused buffer contains nothing of earlier requests", "statement": "The text the HTTP server works on for one connection depends only on the bytes that connection delivered: nothing that an earlier connection on the same worker thread sent can appear in it, whatever the sequence of connections and however their bytes were cut up.", "quantifier": "every sequence of connections on a thread, every byte content, every segmentation", "why_tests_cant": "Leftovers show up only after particular histories of long and short requests.", "anchors": ["src/bin/http_server/cache.rs:BufferPool", "src/bin/http_server/utils.rs:read_complete_http_request"]}
{"id": "C68", "title": "The TCP server evaluates only lines that carry the configured token", "statement": "With a token configured, a request line without that token gets an authorization error and no result; a line with it, and every line when no token is configured, is answered as if there were no check.", "quantifier": "every request line, every token, every expression and variables", "why_tests_cant": "All lines and tokens; the default for a missing token is the interesting corner.", "anchors": ["src/bin/sk_server.rs:handle_client"]}
{"id": "C69", "title": "The command-line tool evaluates with exactly the variables given", "statement": "sk EXPR name=value ... evaluates EXPR with exactly the variables assigned on the command line, the last assignment to a name counting, wherever the options stand; malformed words are refused without evaluating anything; variables given by name stay visible when --json is used too.", "quantifier": "every expression, every sequence of words", "why_tests_cant": "All sequences of assignments and options.", "anchors": ["src/bin/sk.rs:main"]}
{"id": "C70", "title": "The command-line tool, the TCP server and the HTTP server agree", "statement": "Given the same custom functions, expression and JSON object of variables, the three programs arrive at the same value or the same error.", "quantifier": "every expression, every JSON object", "why_tests_cant": "All expressions and documents; the programs bind variables by separate code.", "anchors": ["src/bin/sk.rs:main", "src/bin/sk_server.rs:process_request", "src/bin/http_server/eval.rs:process_eval_request"]}
{"id": "C71", "title": "Evaluating an expression never panics", "statement": "Evaluating a parsed expression, with any variables and any custom functions that do not themselves panic, ends with a value or an error and never with a panic of the host program.", "quantifier": "every expression, every variables, every registry of custom functions", "why_tests_cant": "All expressions and values; the panicking operations (unwrap, indexing, arithmetic, date arithmetic) are reached only by particular combinations.", "anchors": ["src/lib.rs:evaluate", "src/runtime/evaluation/core.rs:eval", "src/evaluator.rs:eval_with_vars_and_custom", "src/runtime/builtin_functions.rs:execute_builtin_function"]}
{"id": "C72", "title": "Registering a function changes only the expressions that call it", "statement": "Registering, replacing or removing a custom function does not change the value or error of any expression that does not call a function of that name (letter case ignored).", "quantifier": "every registry, every function, every expression, every variables", "why_tests_cant": "All expressions and all registries; a lookup by a wrong key or in the wrong place would show only for particular names.", "anchors": ["src/custom.rs:FunctionRegistry", "src/lib.rs:register_function", "src/lib.rs:unregister_function", "src/lib.rs:evaluate_with_custom", "src/runtime/evaluator.rs:eval_function_call"]}
{"id": "C73", "title": "Casts convert by value", "statement": "::Boolean never fails and is true exactly for true, non-zero numbers, texts with a visible character, non-empty arrays and dates other than the epoch; ::Float and ::Currency keep the amount; ::Integer drops the fraction; a number cast to text and back is the same number; ::Array wraps other values; ::DateTime takes whole seconds.", "quantifier": "every value", "why_tests_cant": "All numbers, texts and arrays, including the edges of 64-bit integers.", "anchors": ["src/runtime/type_casting.rs:cast_value"]}
{"id": "C74", "title": "Rounding functions compute the integer they name, in function and method form", "statement": "FLOOR and INT give the greatest integer not above a number, CEIL and CEILING the least integer not below it, ABS its absolute value, ROUND the nearest integer with halves away from zero, .int() the integer without the fraction; the results are exact doubles and each function agrees with the method of the same name.", "quantifier": "every double", "why_tests_cant": "the domain has 2^64 values; ties, huge values and negative fractions fail in different ways than small samples", "anchors": ["src/runtime/arithmetic.rs: exec_arithmetic (FLOOR, CEIL, CEILING, INT, ABS, ROUND)", "src/runtime/method_calls/mod.rs: exec_number_method"]}
{"id": "C75", "title": "The remainder is exact", "statement": "MOD(a, b) and a % b give the r with a = b*k + r for an integer k, |r| < |b| and r of the sign of a, without any rounding error; a zero divisor gives NaN.", "quantifier": "all pairs of doubles", "why_tests_cant": "rounding errors of a remainder show only for operands of very different magnitude", "anchors": ["src/runtime/arithmetic.rs: exec_arithmetic (MOD)", "src/runtime/evaluator.rs: eval_binary_op (Mod)"]}
{"id": "C76", "title": "Searching, replacing, trimming and changing case of texts", "statement": "INCLUDES says whether a text occurs in another, starts_with and ends_with whether it begins or ends it; SUBSTITUTE replaces the occurrences a scan from the left meets and equals JOIN(SPLIT(s, p), r); TRIM removes exactly the white space at the ends; UPPER and LOWER change ASCII letters one by one; functions and methods agree.", "quantifier": "all texts", "why_tests_cant": "overlapping occurrences, empty patterns and Unicode white space are unbounded in number", "anchors": ["src/runtime/string.rs: exec_string (INCLUDES, SUBSTITUTE, SUBSTITUTEM, TRIM, UPPER, LOWER)", "src/runtime/method_calls/string_methods.rs: exec_string_method"]}
{"id": "C77", "title": "Ends and size of an array", "statement": "FIRST(a) = a.first() = a[0] and LAST(a) = a.last() = a[-1] on a non-empty array (on an empty one the functions fail and the methods give null); COUNT, LENGTH, .count(), .length() and .len() are the number of elements; .compact() drops exactly the nulls.", "quantifier": "all arrays", "why_tests_cant": "arrays of every length and content", "anchors": ["src/runtime/array.rs: exec_array (FIRST, LAST, COUNT)", "src/runtime/method_calls/array_methods.rs: exec_array_method", "src/runtime/utils.rs"]}
{"id": "C78", "title": "Predicates", "statement": "Of a number other than NaN exactly one of positive?, negative? and zero? holds; even? and odd? exclude each other and tell the parity; blank? and ISBLANK hold of null, white-space texts and empty arrays, present? of everything else; numeric?, array?, nil?, ISNUMBER and ISTEXT tell the type.", "quantifier": "all values", "why_tests_cant": "every value of every type is in the domain", "anchors": ["src/runtime/method_calls/predicates.rs: exec_predicate", "src/runtime/string.rs: exec_string (ISBLANK, ISNUMBER, ISTEXT)", "src/runtime/utils.rs: is_blank"]}
{"id": "C79", "title": "Conversion methods are total, idempotent and agree with the casts", "statement": "to_s, to_i, to_f, to_a and to_bool never fail, give a value of the type asked for, and converting twice is converting once; to_i drops the fraction, to_f keeps the amount; they agree with the casts to the same type.", "quantifier": "all values", "why_tests_cant": "every value of every type, including nested arrays", "anchors": ["src/runtime/method_calls/conversion_methods.rs", "src/runtime/type_casting.rs: cast_value"]}
{"id": "C80", "title": "Keys, values and members of a document are coherent", "statement": "keys() and values() of an object list the same members in the same order, the value at a position being what .key and DIG read; has_key(k) holds exactly of the listed keys and exactly when .k does not fail; on other documents keys() and values() fail and has_key is false.", "quantifier": "all documents and keys", "why_tests_cant": "documents of every size", "anchors": ["src/runtime/method_calls/mod.rs: exec_json_method", "src/runtime/evaluator.rs: eval_property_access", "src/runtime/json.rs: exec_json"]}
{"id": "C81", "title": "The evaluation functions of skillet::runtime agree with the library's entry points", "statement": "skillet::runtime::eval_with_vars, eval_with_assignments and eval_with_assignments_and_context give the results of evaluate_with, evaluate_with_assignments and evaluate_with_assignments_and_context on the parsed expression, and skillet::runtime::eval gives those of eval_with_vars with no variables.", "quantifier": "all expressions and all variable maps", "why_tests_cant": "The crate contains three evaluators with separate tables and cases; agreement is a statement about every expression, of any depth.", "anchors": ["src/runtime/evaluation/core.rs: eval, eval_with_vars", "src/runtime/evaluation/assignments.rs", "src/runtime/evaluator.rs"]}
{"id": "C82", "title": "Every built in function can be called, and calls are by upper case names", "statement": "Every function called by a parsed text is called by an upper case name made of a letter or underscore followed by letters, digits and underscores, whatever case it is written in; and for every built in function there is a text that calls it.", "quantifier": "all texts; all built in functions", "why_tests_cant": "That no text calls a function is a statement about the whole language; a test shows one text at a time.", "anchors": ["src/lexer.rs: identifiers", "src/parser.rs: parse_primary", "src/runtime/statistical.rs: MODE.SNGL, STDEV.P, VAR.P, PERCENTILE.INC, QUARTILE.INC"]}
{"id": "C83", "title": "JOIN, join and CONCAT write values the same way", "statement": "JOIN(array, d) writes the elements one after the other with d (a comma by default) in between: texts as they are, numbers in their standard format, TRUE or FALSE, nothing for null, amounts with four decimals, dates as seconds, documents as their text; it fails on nested arrays. The method form gives the same. CONCAT writes the same texts without a separator, looking into arrays.", "quantifier": "all arrays and argument lists of all values, nested to any depth, and all separators", "why_tests_cant": "Two loops and a recursive function with a case per kind of value; agreement must hold for all mixtures and nestings.", "anchors": ["src/runtime/array.rs: JOIN", "src/runtime/method_calls/array_methods.rs: join", "src/runtime/string.rs: CONCAT, push_val"]}
{"id": "C84", "title": "Products, powers and roots in function, operator and method form agree", "statement": "PRODUCT (and MULTIPLY) is the product, left to right and rounded at every step, of the numbers and amounts found in its arguments at any array depth, 1 if there are none, and everything else is ignored. PRODUCT of two numbers is what the * operator gives, POW(a, b) and POWER(a, b) are what a ^ b gives, and SQRT(x) is what x.sqrt() gives.", "quantifier": "every list of argument values nested to any depth; every pair of doubles", "why_tests_cant": "Nesting and double values are unbounded; agreement of separately implemented forms must hold for every value, including the zeros, infinities and NaN.", "anchors": ["src/runtime/arithmetic.rs", "src/runtime/method_calls/mod.rs: sqrt", "src/runtime/evaluation/core.rs"]}
{"id": "C85", "title": "Variance and deviation", "statement": "VARP (VAR_P, VAR.P) is the mean of the squared distances of the numbers and amounts in its arguments, at any depth, from their mean, and 0 if there are none; STDEVP is its square root. The variance is never negative, one finite number has variance 0, and equal numbers have variance 0. A finite variance differs from the exact one only by the rounding of the operations: by the square of the error of the mean and by one part in 2^53 for every number; integers with an integral mean and small sums give the exact variance correctly rounded.", "quantifier": "every list of argument values nested to any depth, all doubles", "why_tests_cant": "It is about rounding of arbitrary sums of doubles: a test cannot show that no combination gives a negative value.", "anchors": ["src/runtime/statistical.rs"]}
{"id": "C86", "title": "Fixed declining balance depreciation", "statement": "DB(cost, salvage, life, period, month) is the depreciation of the given year: a fixed share of what is left, prorated to the given number of months in the first year. Over the whole life the value goes from the cost to the salvage value. The depreciation is never negative, it is zero after the life, and negative arguments are refused.", "quantifier": "all costs, salvage values, lives, periods and months", "why_tests_cant": "The total over the life is a statement about an unbounded number of years for all real parameters.", "anchors": ["src/runtime/financial.rs: DB"]}
{"id": "C87", "title": "sk_client evaluates what the command line says", "statement": "The client sends the expression with every `name=value` of the command line, the last assignment of a name winning, and the token of `--token` or else of the environment; the server evaluates exactly that, so the printed answer is that of evaluating the expression with those variables. Values are read as `sk` reads them.", "quantifier": "all command lines of options and assignments in any order, all expressions, all custom functions, all encodings of requests that decode to themselves", "why_tests_cant": "Options and assignments can be mixed in any number and order; the value passes through parsing, encoding, decoding and evaluation.", "anchors": ["src/bin/sk_client.rs: main, parse_value_to_json, send_request", "src/bin/sk_server.rs: process_request"]}
{"id": "C88", "title": "Server statistics count every request once", "statement": "Once all requests in progress have finished, the statistics report the number of requests processed and the sum of their times. Concurrent requests lose no update. A report made meanwhile never counts more requests than have begun.", "quantifier": "all interleavings of any number of requests and reports", "why_tests_cant": "Lost updates depend on the schedule.", "anchors": ["src/bin/http_server/stats.rs: ServerStats", "src/bin/sk_server.rs: ServerStats"]}
{"id": "C89", "title": "Results are sent faithfully", "statement": "The JSON a server answers with determines the result: reading it as a value gives the value the expression has. Both servers send the same JSON for the same value.", "quantifier": "all values, nested to any depth", "why_tests_cant": "Recursive conversions with a case per kind of value in two servers.", "anchors": ["src/bin/http_server/eval.rs: format_simple_output, format_structured_output", "src/bin/sk_server.rs: process_request"]}
{"id": "C90", "title": "Values pass unchanged into and out of JavaScript functions", "statement": "A JavaScript function receives all its arguments in order, and a function that returns one of its arguments returns the value it was called with, arrays of any nesting included. Whatever the function returns or throws, the call gives a value or an error.", "quantifier": "all argument lists, all nestings, all programs", "why_tests_cant": "Recursive conversions in both directions with a case per kind of value; programs are arbitrary.", "anchors": ["src/js_plugin.rs: value_to_js, js_to_value, JavaScriptFunction::execute"]}
{"id": "C91", "title": "Parse errors point at the mistake", "statement": "The position in a parse error is a place in the text that was parsed: the first byte of a character of it, or its end for a string that is never closed. Every error has one.", "quantifier": "all texts, of any length and with characters of any width", "why_tests_cant": "Positions are computed in the lexer on bytes and carried through all parsing functions; texts are unbounded.", "anchors": ["src/lexer.rs: Lexer::next_token", "src/parser.rs: Parser::err_here, Parser::bump", "src/lib.rs: parse", "src/error.rs: Error"]}
{"id": "C92", "title": "The servers run with what their command line says", "statement": "Each server starts only if the words after the port are a sequence of its options, each followed by its value, and runs with the last value given for each option and the default (for the TCP server, the environment) otherwise. Unknown words, missing values and bad thread counts are refused. If any token is given, requests that carry none of the tokens change nothing.", "quantifier": "all command lines of any length, in any order and with repetitions, all environments, all requests to the server so started", "why_tests_cant": "Command lines are unbounded sequences with options that override each other.", "anchors": ["src/bin/sk_http_server.rs: main", "src/bin/sk_server.rs: main"]}
{"id": "C93", "title": "Responses can be read back", "statement": "Every response of the HTTP server can be split in just one way into header lines and body; it announces its length once, as the number of bytes of the body, and carries the body unchanged. Its status is one of 200, 400, 401, 404 and 500, with its reason phrase.", "quantifier": "all bodies (any characters, any length), statuses and content types without line breaks; all requests and server states for the statuses", "why_tests_cant": "Bodies contain arbitrary text, including line breaks and things that look like headers, and characters of several bytes.", "anchors": ["src/bin/http_server/utils.rs: send_http_response, handle_cors_preflight", "src/bin/sk_http_server.rs: handle_http_request"]}
{"id": "C94", "title": "Accepted connections are served", "statement": "Every connection a server accepts is handled exactly once, in the order of acceptance, at most as many at a time as there are worker threads; after the signal to stop none is accepted, those already accepted are still handled, and the server ends.", "quantifier": "all histories of signals, accepted connections, and worker threads starting and finishing, any number of workers", "why_tests_cant": "The property is about all interleavings of the main thread, the workers and the signal handler.", "anchors": ["src/bin/sk_http_server.rs: main", "src/bin/sk_server.rs: main, setup_signal_handlers", "src/bin/http_server/daemon.rs: setup_signal_handlers"]}
{"id": "C95", "title": "Sums, averages and extremes: method and function forms agree", "statement": "a.sum(), a.avg(), a.average(), a.min() and a.max() give what SUM(a), AVG(a), AVERAGE(a), MIN(a) and MAX(a) give, for every array.", "quantifier": "all arrays of values", "why_tests_cant": "Arrays are unbounded and contain arbitrary values and doubles (NaN, signed zeros).", "anchors": ["src/runtime/method_calls/array_methods.rs: exec_array_method", "src/runtime/arithmetic.rs: exec_arithmetic"]}
{"id": "C96", "title": "The extension registry keeps what is registered", "statement": "After any history of registrations, a name gives the function (type converter, data source) registered last under that name, and a method goes to the first registered handler that can handle it; arities, variable resolvers and constant data sources answer consistently.", "quantifier": "all histories of registrations, all names, values and methods", "why_tests_cant": "Histories are unbounded sequences of registrations that replace each other.", "anchors": ["src/traits.rs: ExtensionRegistry, CustomFunction, MemoryVariableResolver, ConstantDataSource"]}
{"id": "C97", "title": "The arithmetic operators are exact or correctly rounded", "statement": "On finite numbers +, -, * and / give the exact result rounded to the nearest double (ties to even, infinity on overflow); dividing by zero gives an infinity or NaN, and a non-number operand is an error. An arithmetic expression whose parts all have exact values that are doubles (in particular integer arithmetic within 2^53) evaluates to exactly its mathematical value under the usual precedence, and =, !=, <, <=, >, >= between such expressions are decided exactly.", "quantifier": "all doubles, all expressions built from numerals, variables, signs, + - * / and parentheses, of any depth, and all texts of them", "why_tests_cant": "There are 2^128 pairs of operands and unboundedly many expressions and spellings.", "anchors": ["src/runtime/evaluator.rs: eval_binary_op, eval_unary_op", "src/types.rs: as_number", "src/parser.rs: Parser"]}
{"id": "C98", "title": "Sums, averages and products of numbers are as exact as doubles allow", "statement": "SUM of finite numbers in any nesting differs from the exact sum by at most ((1+2^-53)^(n-1) - 1) times the sum of the magnitudes, unless it overflows. SUM of integers whose magnitudes add up to at most 2^53 is exact and does not depend on the order; AVG of them is the exact average correctly rounded; PRODUCT of integers is exact while the products stay within 2^53. AVG of finite numbers differs from the exact average by at most ((1+2^-53)^n - 1) times the mean magnitude and 2^-1075, and PRODUCT is the exact product times a factor between (1-2^-53)^n and (1+2^-53)^n while the products stay above 2^-1021, unless they overflow.", "quantifier": "all argument lists of any length and nesting", "why_tests_cant": "The arguments range over unboundedly many lists of doubles; rounding errors depend on every one of them.", "anchors": ["src/runtime/arithmetic.rs: exec_arithmetic"]}
{"id": "C99", "title": "The listing of function files is complete and agrees with uploads, deletions and reloads", "statement": "GET /list-js lists exactly the files named <something>.js below the hooks directory at any depth, ordered by name, each with its path, its size and, when the file defines a function, that function. The functions marked valid are exactly those a start or a reload reads, and after a reload answered 200 each of their names can be called. After an upload or update of <something>.js answered 200 the file is listed as valid with the function that was sent and nothing else changes; after a deletion answered 200 it is gone and nothing else changes.", "quantifier": "all file systems, hooks directories, orders of directory listings, uploads, updates, deletions and reloads", "why_tests_cant": "Directories, names and histories of requests are unbounded.", "anchors": ["src/bin/http_server/js_management.rs: handle_list_js, list_js_functions, scan_directory_for_js, save_js_file", "src/js_plugin.rs: load_functions, parse_js_function"]}
{"id": "C100", "title": "Arithmetic respects the order of numbers", "statement": "If a <= b and c <= d are TRUE then a + c <= b + d and a - d <= b - c are TRUE; multiplying by a number that is not negative keeps the order and by one that is not positive reverses it; dividing by a positive finite number keeps it (infinities included, unless a result is NaN). Raising terms never lowers SUM or AVG. FLOOR, CEIL and ROUND respect the order. + and * are commutative; a - b is zero exactly when a and b are equal. The average of two numbers is between them.", "quantifier": "all doubles including infinities, argument lists of any length and nesting, 0 to 22 decimals", "why_tests_cant": "Rounding could reverse the order at any of 2^256 quadruples of doubles.", "anchors": ["src/runtime/evaluator.rs: eval_binary_op", "src/runtime/arithmetic.rs: exec_arithmetic"]}
{"id": "C101", "title": "GET /eval evaluates what the query says", "statement": "A GET request to /eval whose values are percent-encoded is answered exactly as a POST request with the same evaluation in its body: the last expr or expression parameter is evaluated, every other parameter name that has a value is a variable with the last value given for it, names without a value are ignored, output_json and include_variables are taken from their last occurrence. Without an expression, or with an empty one, it is answered 400 and nothing changes; with a wrong token 401.", "quantifier": "all parameter lists of any length and order, values over all Unicode text, all header sections, server states and registries", "why_tests_cant": "Names may repeat and values may contain any character, also those that separate parameters.", "anchors": ["src/bin/http_server/eval.rs: handle_eval_get", "src/bin/http_server/eval.rs: handle_eval_post", "src/bin/sk_http_server.rs: handle_http_request"]}
{"id": "C102", "title": "Equals may replace equals, and parts can be named", "statement": "Two expressions that do the same for all variables may replace each other anywhere in any expression or program without changing its value or error. At given variables, two parts with the same value or error may replace each other wherever they are evaluated at these variables. If e has a value and x is a new name, `:x := e; C[:x]` gives what C[e] gives, value or error, for every C that does not evaluate the part once per element or as a method argument; if e fails, so does every program that begins by naming it. A part of the lambda of FILTER, FIND, MAP or REDUCE that mentions neither the element nor the accumulator, and has a value, can be named before the loop. So can a part of the lambda of the methods filter, find, map and reduce of an array, if the part has the same value in the lambda.", "quantifier": "all expressions, contexts of any depth, variable maps, registries", "why_tests_cant": "Refactorings apply in arbitrary surroundings; a test fixes the surroundings.", "anchors": ["src/runtime/evaluator.rs: eval", "src/runtime/evaluator.rs: eval_function_call", "src/runtime/evaluator.rs: eval_with_assignments_context"]}
{"id": "C103", "title": "A function does the same under each of its names", "statement": "AVG/AVERAGE, CEIL/CEILING, POW/POWER, PRODUCT/MULTIPLY, FLOOR/INT and the three spellings of the statistical functions give the same value or the same error for all arguments, anywhere in an expression outside the arguments of methods; there they give the same value or both fail. The methods with two names (to_s/to_string, upper/upcase, length/len/count, contains/includes, ceil/ceiling, has/has_key and so on) give the same value or error on every receiver that has them, in any mixture of cases.", "quantifier": "all arguments and receivers, all surrounding expressions, registries without the names, variable maps", "why_tests_cant": "The names are separate entries of tables and the arguments and surroundings are unbounded; a test compares them on a few calls.", "anchors": ["src/runtime/function_dispatch.rs: execute", "src/runtime/arithmetic.rs: exec_arithmetic", "src/runtime/statistical.rs: exec_statistical", "src/runtime/method_calls/mod.rs: exec_method", "src/runtime/builtin_functions.rs: exec_builtin"]}
{"id": "C104", "title": "The body of a POST evaluation is read as its members say", "statement": "A body with an expression (a text, or a list of texts that are read one after the other), and optionally arguments (an object), output_json (a boolean) and include_variables (a boolean or a list of names separated by commas, each with or without a colon), null counting as absent, is evaluated as these members say; the order of members and other members do not count. A body that is no JSON, lacks the expression, or has a member of another kind or twice is answered with 400 and nothing is evaluated. Bodies that agree in the four members are answered alike.", "quantifier": "all bodies, headers, tokens, server states and configurations; all JSON readers and map orders", "why_tests_cant": "The set of bodies is unbounded: order, repetitions, other members, parts of expressions, spaces in lists of names.", "anchors": ["src/bin/http_server/types.rs: EvalRequest", "src/bin/http_server/types.rs: deserialize_expression", "src/bin/http_server/types.rs: IncludeVariables", "src/bin/http_server/eval.rs: handle_eval_post", "src/bin/http_server/utils.rs: parse_json_body"]}
{"id": "C105", "title": "The functions reported as built in are those that exist", "statement": "has_builtin_function(name) tells whether exec_builtin_fast knows the function: if it is false, every call, with whatever arguments, fails with \"Unknown function\", also in an expression that does not use the functions with expression arguments; if it is true, some call succeeds. builtin_function_count() is the number of different names reported.", "quantifier": "all names, argument lists, environments, registries and platforms", "why_tests_cant": "The set of names is unbounded; tests look at two.", "anchors": ["src/runtime/function_dispatch.rs: has_builtin_function", "src/runtime/function_dispatch.rs: builtin_function_count", "src/runtime/function_dispatch.rs: exec_builtin_fast"]}
{"id": "C106", "title": "Numbers extracted from a value are those that aggregates use", "statement": "extract_numeric_values lists the numbers and currencies found in a value at any depth of arrays, from left to right; SUM, AVG, AVERAGE, MIN, MAX, MEDIAN, MODE.SNGL, VAR.P and STDEV.P of the value are the same functions of this list.", "quantifier": "all values, of any depth and size", "why_tests_cant": "Values are unbounded trees.", "anchors": ["src/runtime/jsonpath.rs: extract_numeric_values", "src/runtime/arithmetic.rs: exec_arithmetic", "src/runtime/statistical.rs: exec_statistical"]}
{"id": "C107", "title": "Function files under concurrent requests and crashes", "statement": "After every interleaving of the system calls of uploads, updates and deletions handled by the server's workers, with any calls failing, and at every moment at which the process may be stopped: a file no request names is unchanged; a file holds either what it held before or the whole content of an upload or update that was accepted for it; each answer is one the same requests could have got one after the other.", "quantifier": "all disks, all sequences of requests and interleavings of their system calls, all lengths of partial writes, all failures and all stopping points", "why_tests_cant": "Schedules and crash points are unbounded in number; a test runs one of them.", "anchors": ["src/bin/http_server/js_management.rs: save_js_file", "src/bin/http_server/js_management.rs: delete_js_file", "src/bin/http_server/js_management.rs: handle_update_js", "src/bin/http_server/js_management.rs: handle_upload_js", "src/js_plugin.rs: from_file"]}
{"id": "C108", "title": "JQ returns what its path selects", "statement": "Outside the arguments of methods, where the function is unknown, `JQ(d, p)` gives the value of the node that path `p` selects in `d` when it selects exactly one, and otherwise the array of the values of all selected nodes in order, the empty array when there are none. It is an error exactly when `p` is not a text starting with `$`, `d` is no document and cannot be written as one, or the path library refuses the path. SUM, AVG, MIN, MAX, MEDIAN, MODE.SNGL, VAR.P and STDEV.P of it are those of all selected values, whatever their number. Where the path and a list of segments lead to the same node it agrees with DIG. MAP, FILTER and COUNTIF over it fail when exactly one node is selected that is no array, and selecting an array is not distinguished from selecting its elements unless it has exactly one.", "quantifier": "all documents and other data values, all paths, all answers of the path library, all registries that do not redefine the functions, all environments", "why_tests_cant": "Documents, paths and numbers of matches are unbounded; a test tries a few.", "anchors": ["src/runtime/evaluator.rs: eval_function_call", "src/runtime/jsonpath.rs: apply_jsonpath", "src/runtime/jsonpath.rs: value_to_json", "src/runtime/jsonpath.rs: json_to_value", "src/runtime/jsonpath.rs: is_jsonpath"]}
{"id": "C109", "title": "A server started with -d runs in the background as one process", "statement": "After every interleaving of the system calls of any number of servers started with `-d` for the same port and process number file, with any calls failing and processes stopped at any time: of each start at most one process goes on, it is not the process that was started, it is in a new session that it does not lead, and its standard input, output and error go to /dev/null; at most one server serves the port; the file holds the number of the process that serves; the command ends with status 0 only if a server was started.", "quantifier": "all histories of starts, turns and stops, all schedules, all failures of system calls, all descriptors the command was started with", "why_tests_cant": "Schedules, failures and stopping points are unbounded in number; a test of forking processes runs one schedule and cannot make fork or setsid fail.", "anchors": ["src/bin/http_server/daemon.rs: daemonize", "src/bin/http_server/daemon.rs: write_pid_file", "src/bin/sk_http_server.rs: handle_daemon_mode", "src/bin/sk_http_server.rs: start_server", "src/bin/sk_server.rs: daemonize", "src/bin/sk_server.rs: write_pid_file"]}
{"id": "C110", "title": "Every request is answered by the endpoint it names and changes only what that endpoint may change", "statement": "For every method, path, query, version, header, body, configuration and state of the HTTP server: the four pages and every OPTIONS request are answered with 200, and a method and path that name no endpoint with 404, without any change; every other endpoint answers with one of its own statuses; function files change only at upload, update and delete, directories only at upload, update and reload, the registered functions only at reload, the response cache only at evaluations and DELETE /cache, the request counter only at evaluations and by one; DELETE /cache forgets every result; a request line of fewer than three words gets 400. The query never decides which endpoint answers. After any history of requests, what none of their endpoints may change is as before.", "quantifier": "all request texts, queries, headers, bodies, tokens, decoders, states, and all finite histories of requests", "why_tests_cant": "Requests and states are unbounded in number, and that nothing else changes is a statement about every part of the state after every request; tests look at the answer of a few.", "anchors": ["src/bin/sk_http_server.rs: handle_http_request", "src/bin/sk_http_server.rs: handle_root", "src/bin/sk_http_server.rs: handle_api_docs", "src/bin/sk_http_server.rs: handle_openapi_spec", "src/bin/http_server/eval.rs: handle_health", "src/bin/http_server/eval.rs: handle_cache_clear", "src/bin/http_server/eval.rs: handle_eval_post", "src/bin/http_server/eval.rs: handle_eval_get", "src/bin/http_server/js_management.rs: handle_upload_js", "src/bin/http_server/js_management.rs: handle_update_js", "src/bin/http_server/js_management.rs: handle_delete_js", "src/bin/http_server/js_management.rs: handle_list_js", "src/bin/http_server/js_management.rs: handle_reload_hooks", "src/bin/http_server/utils.rs: handle_cors_preflight"]}
{"id": "C111", "title": "Well-typed expressions do not go wrong", "statement": "There is a type system for expressions (numbers, booleans, texts, money, dates and arrays of one type; operators, conditionals, casts, slices, spreads, 56 functions, 54 methods and predicates, FILTER, MAP, REDUCE, COUNTIF and AVGIF with lambdas over variables of known types) such that an expression that has a type evaluates, for all values of its variables of the stated types, to a value of that type. If it also uses indexing, FIRST, LAST, the sqrt method, the casts of a text to Float or Currency, SORT, MEDIAN, percentiles and quartiles, the financial functions, DATE, DATEADD or DATEDIFF, it can only fail in one of twenty ways that depend on the data, each of which does happen; it never fails because of a type, a missing variable, an unknown function or a wrong number of arguments. Assignments in a program give variables types for what follows. The same holds in the servers as long as no registered function has one of the names used and method lambdas do not depend on the registry.", "quantifier": "all program texts whose expression has a type, all types of variables, all values of variables of these types, all registries without the names used", "why_tests_cant": "Expressions nest without bound, the values of variables are arbitrary (NaN, huge numbers, any text, arrays of any size and depth), and the claim is about every combination of operators, functions and methods; tests run a few.", "anchors": ["src/runtime/evaluator.rs: Evaluator::eval", "src/runtime/evaluator.rs: eval_binary_op", "src/runtime/evaluator.rs: eval_unary_op", "src/runtime/evaluator.rs: eval_function_call", "src/runtime/evaluation/core.rs: eval_with_vars", "src/runtime/function_dispatch.rs: execute", "src/runtime/method_calls/mod.rs: exec_method", "src/runtime/type_casting.rs: cast_value", "src/lib.rs: evaluate_with, evaluate_with_assignments_and_context, evaluate_with_custom"]}
{"id": "C112", "title": "The first part that fails decides the failure", "statement": "The parts of an expression are evaluated from left to right: operands, elements, members, arguments, the receiver of a method, the condition and then only the branch taken, and for FILTER, FIND, MAP, REDUCE, SUMIF, AVGIF and COUNTIF first the array, then the other arguments, then the lambda on one element after the other. If a part at any depth fails (or panics) and everything evaluated before it succeeds, the whole expression fails with exactly that failure. Conversely every failure has exactly one origin: one part that is reached in this order, that fails although all its own parts succeed. Literals, variables that have a value, arrays, assignments, sequences, == and !=, a ternary with a boolean condition and the higher order functions applied to an array are never the origin. A program fails exactly with the failure of its first failing statement.", "quantifier": "all expressions of any nesting, all variables, all registries of custom functions or none, all failures, all programs of statements", "why_tests_cant": "Expressions nest without bound and every position of every construct may be the failing one, alone or together with others; tests try a few single failures.", "anchors": ["src/runtime/evaluator.rs: Evaluator::eval", "src/runtime/evaluator.rs: eval_function_call", "src/runtime/evaluator.rs: eval_filter", "src/runtime/evaluator.rs: eval_find", "src/runtime/evaluator.rs: eval_map", "src/runtime/evaluator.rs: eval_reduce", "src/runtime/evaluator.rs: eval_sumif", "src/runtime/evaluator.rs: eval_avgif", "src/runtime/evaluator.rs: eval_countif", "src/runtime/evaluator.rs: eval_with_assignments_context"]}
{"id": "C113", "title": "What sk prints identifies the result", "statement": "Without --output-json, a run of sk that succeeds prints exactly one line, without control characters in it whatever strings the result contains; a run that does not succeed prints nothing on standard output. Two runs that print the same, and not nothing, had the same result: same type and same contents, down to the sign of zero, strings with quotes, backslashes and line breaks included, and JSON documents apart from strings. (With --output-json this does not hold, see the contrast.)", "quantifier": "all command lines, all registries, all results of any nesting, all strings", "why_tests_cant": "All values and all strings, including those that imitate the delimiters of the format; tests print a few.", "anchors": ["src/bin/sk.rs: main", "src/types.rs: Value"]}
{"id": "C114", "title": "The HTTP benchmark asks for the expression it names", "statement": "For every expression of ASCII characters and every host name without a brace, the request that the benchmark of the HTTP server writes makes a server without a token evaluate exactly that expression, with no variables given and none asked for; and its health check is answered with success. The encoding keeps an expression if and only if all its characters are ASCII.", "quantifier": "all expressions, all hosts, all servers without a token and their states", "why_tests_cant": "All texts, over all characters: the encoder and the decoder are written by different hands, and a test compares a few strings.", "anchors": ["src/bin/sk_http_bench.rs: url_encode", "src/bin/sk_http_bench.rs: make_eval_request", "src/bin/sk_http_bench.rs: make_request", "src/bin/sk_http_bench.rs: check_server_health", "src/bin/http_server/eval.rs: parse_query_params"]}
{"id": "C115", "title": "The HTTP benchmark counts exactly under every schedule", "statement": "For every number of requests (below 2^32) and of threads, whatever the answers and however the threads interleave their updates of the shared counters: once all threads have ended, the successes and the failures reported are exactly those that occurred and add up to the number of requests, and the least, greatest and mean latency are those of the successes. The threads can always end. Its arguments are accepted exactly if they are a host and port followed by options with numbers, in any order, the last one counting. (The warm-up and the option for connections do not do what they say, see the contrasts.)", "quantifier": "all numbers of requests and threads, all answers, all interleavings, all argument lists", "why_tests_cant": "All interleavings of any number of threads; a test runs one schedule.", "anchors": ["src/bin/sk_http_bench.rs: run_concurrent_benchmark", "src/bin/sk_http_bench.rs: parse_args", "src/bin/sk_http_bench.rs: run_warmup", "src/bin/sk_http_bench.rs: run_concurrent_tests"]}
{"id": "C116", "title": "The benchmark of the TCP client measures the request asked for, and its figures are exact", "statement": "For every list of arguments, sk_client --benchmark makes the very request that a normal run with the same arguments (apart from the number of iterations) makes, as many times as the last bare number says, or a hundred times; where the normal run is refused, so is the benchmark. For all answers, of which at least one arrives: successes and failures are counted exactly and add up to the iterations; the least and greatest latency and the percentiles 50, 95 and 99 are latencies that were measured, the percentiles being at the places floor(p(n-1)/100) of the n latencies in order, and they are in order; the average is the exact mean rounded once, and lies between the least and the greatest. (Not so the server's average, see the contrast.)", "quantifier": "all argument lists, all sequences of answers (fewer than 2^31, adding up to at most 2^53 ms)", "why_tests_cant": "All argument lists and all sequences of measurements, of any order and number, with the rounding of the place of the percentile; tests have no clock to vary.", "anchors": ["src/bin/sk_client.rs: main", "src/bin/sk_client.rs: run_benchmark_with_request", "src/bin/sk_client.rs: percentile", "src/bin/sk_client.rs: parse_value_to_json"]}
{"id": "C117", "title": "Variables and lambda parameters can be renamed", "statement": "For every expression and every renaming of variables: evaluating the renamed expression with the variables under their new names gives the same value or the same error (an error for a variable without value names it by its new name), with and without custom functions, provided the names its lambdas bind (x, acc, and the names given as texts) are left alone; for programs with assignments likewise, if no two names become one, and afterwards every variable has under its new name the value it had under the old. A lambda's own parameter can be renamed, in the lambda and in the argument that names it, also from the default x (and acc): FILTER, FIND, MAP, REDUCE and the methods of these names give the same value or error on every input.", "quantifier": "all expressions of any depth, renamings, variables, registries, lambdas and arrays of any length", "why_tests_cant": "Ranges over every expression and every renaming, with lambdas nested to any depth and variables bound in loops; a test renames a name in a few formulas.", "anchors": ["src/runtime/evaluator.rs: eval_with_vars_and_custom", "src/runtime/evaluation/core.rs: eval_with_vars", "src/runtime/evaluation/core.rs: eval_with_vars_and_custom", "src/runtime/method_calls/lambda_methods.rs: exec_filter", "src/runtime/method_calls/lambda_methods.rs: exec_reduce", "src/lib.rs: evaluate_with_assignments_and_context", "src/lib.rs: evaluate_with_assignments"]}
{"id": "C118", "title": "Programs can be run piece by piece, reordered and cleared of what is not used", "statement": "Any number of programs, evaluated in turn with evaluate_with_assignments_and_context, each given the variables the one before left, give the value, variables or error that their texts, joined by semicolons, give when evaluated as one. Two assignments in a row (not at the end) to different variables, neither reading the other's, can be exchanged: the program succeeds with the same value and variables, or fails either way. An assignment whose expression has a value and whose variable is not read afterwards, one that is at once overwritten, a repeated one, and an expression in the middle of the program that has a value can be left out: same value, same error, same other variables.", "quantifier": "all programs, all texts of them, all variables, any number of pieces", "why_tests_cant": "All programs and all splittings; histories of statements are unbounded.", "anchors": ["src/lib.rs: evaluate_with_assignments_and_context", "src/lib.rs: evaluate_with_assignments", "src/runtime/evaluator.rs: eval_with_assignments_context", "src/parser.rs: parse"]}
{"id": "C119", "title": "The function files are a map from names to code, over every history of requests", "statement": "Over every sequence of HTTP requests, the files in the server's function directory behave as a map from file names to code. An upload of a file name ending in .js with code that is a function is answered with 200 and afterwards the file is exactly the code sent; a wrong name or code that is not a function is answered with 400 and changes nothing. An update does the same but is answered with 404 if there is no such file. A deletion removes the file (200), or is answered with 500 if there is none. Requests with a wrong token are answered with 401, bodies that cannot be read with 400, and neither they nor requests to any other endpoint change a file. The calls may be sent as JSON, with members in any order and unknown ones ignored, or as a form.", "quantifier": "all sequences of requests, all file names without a slash, all codes, headers, JSON objects and forms, all starting contents of the directory", "why_tests_cant": "Histories are unbounded, and so are bodies, headers and file contents.", "anchors": ["src/bin/http_server/js_management.rs: handle_upload_js", "src/bin/http_server/js_management.rs: handle_update_js", "src/bin/http_server/js_management.rs: handle_delete_js", "src/bin/http_server/types.rs: UploadJSRequest", "src/bin/http_server/types.rs: UpdateJSRequest", "src/bin/http_server/types.rs: DeleteJSRequest", "src/bin/sk_http_server.rs: handle_http_request"]}
{"id": "C120", "title": "Giving more variables cannot change a result that was found without them", "statement": "If an expression is evaluated with some variables and then with further ones as well, the outcome is the same, value or error, unless the first evaluation stopped with the error naming a variable that only the second one gives and that the expression mentions. So a value found without some variables is kept when they are given, a missing variable is always reported as missing rather than read as null, and a program with assignments gives the same value and leaves the same variables.", "quantifier": "all expressions, variable maps, extensions of them and registries; all texts and programs with assignments", "why_tests_cant": "Expressions and maps are unbounded; a branch that is not evaluated, or a lambda run over no element, may hide a missing variable, so the claim concerns every path.", "anchors": ["src/runtime/evaluator.rs: eval_with_vars", "src/runtime/evaluation/core.rs: eval_with_vars", "src/runtime/evaluation/higher_order.rs: get_param_name", "src/lib.rs: evaluate_with", "src/lib.rs: evaluate_with_custom", "src/lib.rs: evaluate_with_assignments_and_context"]}
{"id": "C121", "title": "Custom functions with effects are called once per call, in order, and not after a failure", "statement": "Custom functions may have effects (a counter, a file, an HTTP request). An evaluation only calls custom functions its expression names. Each call in the expression is made at most once, arguments from left to right before the function; an evaluation that succeeds makes all of them, one that fails makes those before the failure and no later ones. A method with a lambda calls the function once per element, from the first on; find stops at the element found. If the functions have no effects, the result depends on nothing but the expression and the variables, and nothing is changed.", "quantifier": "all expressions, variable maps, registries of functions with effects on a world of any type, worlds and failures", "why_tests_cant": "Expressions, arrays and worlds are unbounded; tests of a few call orders do not show that no construct evaluates an operand twice or in another order.", "anchors": ["src/custom.rs: CustomFunction", "src/custom.rs: execute", "src/runtime/evaluator.rs: eval_function_call", "src/runtime/evaluator.rs: eval_sumif", "src/runtime/evaluation/core.rs: eval_with_vars_and_custom", "src/runtime/method_calls/lambda_methods.rs: exec_map_with_custom", "src/js_plugin.rs: JavaScriptFunction"]}
{"id": "C122", "title": "The health report of the HTTP server counts what was asked of it", "statement": "The health report needs no token and asking for it changes nothing. After any requests it shows as many processed requests as evaluations were answered, succeeded or not, and their average time. While the cache is not cleared, every evaluation answered adds one hit or one miss and no other answered request does, so with no worker lost hits plus misses are the requests processed. An evaluation that succeeded, repeated at once, is a hit. The hit rate is the rounded quotient of hits and lookups, from 0 to below 1; there are never more entries than misses or than 1000. Clearing the cache with the token resets the numbers of the cache and no other.", "quantifier": "all histories of requests with any method, path, query, headers, body and duration, all tokens, files, functions; for the hit rate up to 2^53 lookups", "why_tests_cant": "Histories are unbounded, and every endpoint takes part; a test looks at the report after two evaluations.", "anchors": ["src/bin/http_server/eval.rs: handle_health", "src/bin/http_server/eval.rs: process_eval_request", "src/bin/http_server/eval.rs: handle_cache_clear", "src/bin/http_server/cache.rs: hit_rate", "src/bin/http_server/cache.rs: get_cache_stats", "src/bin/http_server/stats.rs: record_request", "src/bin/http_server/types.rs: HealthResponse"]}
{"id": "C123", "title": "Calls on arrays can be rewritten by the usual laws", "statement": "COUNTIF(a, p) is LENGTH(FILTER(a, p)); FIND is the first of the filtered elements or null; filtering twice by one test is filtering once, by two tests is filtering by both in that order; REVERSE commutes with FILTER and MAP; SUMIF and AVGIF with a lambda are SUM and AVG of the filtered array; the counts of those that meet a test and of those that do not add up to LENGTH; MAP keeps the length, MAP(a, f)[i] is f on a[i], MAP by two lambdas in turn is one MAP; MAP to :x and FILTER by TRUE are the identity; adding up and multiplying by REDUCE is SUM and PRODUCT. The same laws hold of chains of methods: a.filter(p).filter(p) is a.filter(p), a.find(p) is a.filter(p).first() where the filter answers, reverse() commutes with filter and map, map keeps length(), the elements that meet a test and those that do not are together the array, and filtering after mapping is mapping what an equivalent test on the originals keeps; adding up by reduce is sum(), and mapping and then reducing is reducing once.", "quantifier": "all expressions for the array and the lambdas, all variables and custom functions other than those of the names used, all arrays (without inner arrays for SUMIF and AVGIF; of numbers for REDUCE; up to 2^53 elements for the sum of counts)", "why_tests_cant": "Arrays have any length and the lambdas are any expressions; a test tries single ones.", "anchors": ["src/runtime/evaluator.rs: eval_filter", "src/runtime/evaluator.rs: eval_find", "src/runtime/evaluator.rs: eval_map", "src/runtime/evaluator.rs: eval_reduce", "src/runtime/evaluator.rs: eval_sumif", "src/runtime/evaluator.rs: eval_avgif", "src/runtime/evaluator.rs: eval_countif", "src/runtime/array.rs: exec_array", "src/runtime/arithmetic.rs: exec_arithmetic"]}
{"id": "C124", "title": "What a server says when it is started is true, and never shows a token", "statement": "Starting sk_http_server or sk_server: the server the command line asks for runs unless the machine refuses the port, the socket, the background or the process file, whether or not custom functions can be loaded; in the foreground it either runs or ends with status 1 and the reason as its last line; a refused line prints one message, which repeats at most a word that stands in place of an option; the warning that nothing is protected appears exactly if requests without a token are served, the warning that one token opens everything exactly if it does; what is printed does not depend on the values of the tokens.", "quantifier": "all command lines, environments, and answers of the machine (files, port, background, functions); all replacements of tokens that keep different ones different", "why_tests_cant": "The messages follow from every combination of options, tokens and failures; that no token is printed is a statement about pairs of runs.", "anchors": ["src/bin/sk_http_server.rs: main", "src/bin/sk_http_server.rs: parse_args", "src/bin/sk_http_server.rs: handle_daemon_mode", "src/bin/sk_http_server.rs: load_js_functions", "src/bin/sk_http_server.rs: start_server", "src/bin/sk_http_server.rs: print_startup_messages", "src/bin/http_server/auth.rs: TokenConfig::new", "src/bin/http_server/auth.rs: print_warnings", "src/bin/sk_server.rs: main"]}
{"id": "C125", "title": "Who does not have a token learns nothing about it", "statement": "Two servers that differ in tokens only give the same answers to every history of requests that carry none of these tokens, and end in the same state; this holds for each token separately, so the holder of the evaluation token learns nothing about the admin token. The same for the TCP server under every schedule of connections.", "quantifier": "all histories of requests, all settings of the servers, all pairs of tokens (not empty); for the TCP server all lines, clients and schedules", "why_tests_cant": "It compares two runs over unbounded histories.", "anchors": ["src/bin/http_server/auth.rs: check_authentication", "src/bin/http_server/auth.rs: check_admin_authentication", "src/bin/sk_http_server.rs: handle_http_request", "src/bin/sk_server.rs: handle_client"]}
{"id": "C126", "title": "Every reply of the HTTP server says what happened", "statement": "A document that is sent says success: true and no error exactly if the status is 200, and otherwise success: false with a text. After every history, the document of an evaluation has the result in the form asked for, the text of the error, exactly the variables to be reported, and a request_id greater than all before; that of an upload or update has the name of the function that is now in the file and whether its example holds; that of a listing has one entry for each file, with their number; that of a reload has the number of valid function files; the health page has the numbers of the server. A request that cannot be read is answered with the reason and changes nothing. What is written can be read back in one way, and the messages do not depend on tokens that are not carried.", "quantifier": "all requests, histories, states of the server, clients and schedules of reading; all behaviours of the decoders, the JavaScript engine, the file system and the clock", "why_tests_cant": "Replies depend on the history, the files and every failure; agreement of status, document and effect is a statement about every path through every handler.", "anchors": ["src/bin/http_server/eval.rs: process_eval_request", "src/bin/http_server/eval.rs: handle_eval_post", "src/bin/http_server/eval.rs: handle_eval_get", "src/bin/http_server/eval.rs: handle_health", "src/bin/http_server/js_management.rs: handle_upload_js", "src/bin/http_server/js_management.rs: handle_update_js", "src/bin/http_server/js_management.rs: handle_delete_js", "src/bin/http_server/js_management.rs: handle_list_js", "src/bin/http_server/js_management.rs: handle_reload_hooks", "src/bin/http_server/js_management.rs: validate_js_function", "src/bin/http_server/utils.rs: send_http_response", "src/bin/http_server/utils.rs: send_http_error", "src/bin/sk_http_server.rs: handle_http_request"]}
{"id": "C127", "title": "JSON texts are read and written as the standard says", "statement": "The texts accepted as JSON are exactly those of the grammar of RFC 8259 whose brackets and braces are nested at most 127 deep. A text stands for one document; of members with the same name the last counts, and members come in the order of their names. What is written is such a text on one line, different documents are written differently, and reading it gives the same document unless it is nested deeper; what has been read and is written again is read as the same document. So a value without dates and amounts that is put into an object comes out unchanged if its arrays are nested at most 126 deep, and reading it fails otherwise; and the variables of a JSON object are the ones that the expression reads.", "quantifier": "all texts, documents, values and ways of writing and reading doubles", "why_tests_cant": "Grammars and nesting are unbounded, and escapes, whitespace and numbers combine.", "anchors": ["Cargo.toml: serde_json", "src/lib.rs: evaluate_with_json", "src/lib.rs: json_to_value", "src/runtime/json.rs: exec_json", "src/runtime/jsonpath.rs: value_to_json", "src/runtime/method_calls/conversion_methods.rs: value_to_json_value"]}
{"id": "C128", "title": "What the client shows is what the expression is worth at the server", "statement": "A request that the client writes is one line of JSON, whatever characters the expression, the variables and the token contain, and the server reads from it the same expression, the same variables and the same token, whatever order the members are written in. Whoever writes it, a line is taken for a request exactly if it is the JSON text of an object that has the expression once and the other members at most once, or of an array of the four; to every other line the server answers that it is invalid. The response is one line again, and the client reads from it what was answered. So a run of the client prints the value of the expression with the variables given as arguments or by --json, and otherwise the message of its error, or that the token is wrong; and a client that sends several requests on one connection gets their answers in order.", "quantifier": "all expressions, variables, documents, tokens, registered functions, orders of members, and histories of the server", "why_tests_cant": "Texts and documents are unbounded, and the two programs must agree on every one of them.", "anchors": ["src/bin/sk_client.rs: send_request", "src/bin/sk_client.rs: EvalRequest", "src/bin/sk_client.rs: EvalResponse", "src/bin/sk_client.rs: main", "src/bin/sk_server.rs: handle_client", "src/bin/sk_server.rs: process_request", "src/bin/sk_server.rs: EvalRequest", "src/bin/sk_server.rs: EvalResponse"]}
{"id": "C129", "title": "What an HTTP client is told is what the expression is worth, from bytes to bytes", "statement": "A client sends a POST request to /eval with header lines, the length of the body, and a JSON text that asks for an expression, in one piece or in parts, with variables, or a GET request whose parameters, encoded in any way, do. However the bytes are split on their way, and however the JSON is laid out or the parameters are encoded, a server without stored results sends back a response with status 200 whose announced body is a JSON text for a document with the value of the expression with these variables, alone or with its type and time as asked for, or one with status 400 and the text of the error. A body that is no JSON text, or not one that asks for an evaluation, is answered with status 400 and a document that says so.", "quantifier": "all expressions, variables, layouts of the body, header lines, splittings of the bytes, registered functions, worlds and sites without stored results", "why_tests_cant": "Requests, expressions and splittings are unbounded.", "anchors": ["src/bin/sk_http_server.rs: handle_http_request", "src/bin/http_server/utils.rs: parse_json_body", "src/bin/http_server/utils.rs: send_http_response", "src/bin/http_server/eval.rs: handle_eval_post", "src/bin/http_server/eval.rs: process_eval_request", "src/bin/http_server/types.rs: EvalRequest", "src/bin/http_server/types.rs: EvalResponse"]}
{"id": "C130", "title": "The benchmark counts exactly the evaluations that succeed", "statement": "However often the benchmark asks an HTTP server for an expression, in the path or in a JSON body with a choice of variables to report, and however the bytes are split on their way: if evaluating the expression succeeds, every request is counted as a success, with or without stored results; if it fails, and the server has no stored results, none is. The health check finds every running server healthy. Of the benchmark's own expressions, those of all parts but one succeed.", "quantifier": "all expressions, hosts, numbers of requests, splittings of the bytes, clocks and registered functions", "why_tests_cant": "Expressions and runs are unbounded; the text looked for might also stand in the message of an error or in other parts of a response.", "anchors": ["src/bin/sk_http_bench.rs: make_request", "src/bin/sk_http_bench.rs: make_eval_request", "src/bin/sk_http_bench.rs: make_json_request", "src/bin/sk_http_bench.rs: run_expression_tests", "src/bin/sk_http_bench.rs: run_variable_tests", "src/bin/sk_http_bench.rs: run_concurrent_benchmark", "src/bin/sk_http_bench.rs: check_server_health"]}
{"id": "C131", "title": "The comments in a file say which function it defines", "statement": "A file defines the function that the comments `// @name:`, `// @min_args:`, `// @max_args:` and `// @example:` in it describe: of several lines about the same thing the last counts, a missing number of arguments means at least one, a missing or `unlimited` limit none; white space around lines and values and everything else in the file do not matter. It is refused, with the message that goes with it, exactly if no line gives a name or a number of arguments cannot be read. Comments written for a function are read back as that function.", "quantifier": "all texts of files, functions, values and lines of code", "why_tests_cant": "Files are arbitrary texts; comments can stand anywhere among other lines, repeat and contradict each other.", "anchors": ["src/js_plugin.rs: parse_js_function_internal", "src/js_plugin.rs: parse_js_function", "src/js_plugin.rs: from_file"]}
{"id": "C132", "title": "A function that is uploaded and loaded is the one evaluations call", "statement": "After any history of requests in which a file with a function is uploaded (as JSON or as a form) and not touched again, a reload that is answered with 200 and a clearing of the stored results, a request for a call of that function, under its name in any case and also if a built-in function has that name, is answered with what the uploaded code gives for the values of the arguments. A successful reload gives each name that one function in the files has to that function and leaves every other name as it was.", "quantifier": "all histories of requests, files, functions, tokens, expressions with arguments and variables, splittings of the bytes and orders of directory entries", "why_tests_cant": "Histories, files and arguments are unbounded; the claim joins uploading, parsing, storing, loading, registering, the cache, routing, JSON and evaluation.", "anchors": ["src/bin/http_server/js_management.rs: handle_upload_js", "src/bin/http_server/js_management.rs: handle_reload_hooks", "src/js_plugin.rs: auto_register", "src/js_plugin.rs: load_functions_recursive", "src/custom.rs: register", "src/bin/http_server/eval.rs: handle_cache_clear", "src/bin/http_server/eval.rs: handle_eval_post"]}
{"id": "C133", "title": "The null-safe idioms of the guide work on every value", "statement": "The expressions that the documentation gives for data with nulls work whatever the values are: conversions before lengths and sums never fail, `map` with a conversion keeps the length and converts each element, the filters for empty and for given dates select exactly these documents, texts are joined without failing, and `&.` keeps nulls. (Not the recommended filter with `&.`.)", "quantifier": "all values of the variables, all arrays and documents in them, of any size; all environments", "why_tests_cant": "The idioms are advertised for every mix of values; an example shows one array.", "anchors": ["DOCUMENTATION.md", "src/runtime/method_calls/conversion_methods.rs: exec_conversion_method", "src/runtime/method_calls/mod.rs: exec_method", "src/runtime/method_calls/lambda_methods.rs: exec_filter", "src/runtime/method_calls/lambda_methods.rs: exec_map", "src/runtime/evaluator.rs: eval_with_vars_and_custom"]}
{"id": "C134", "title": "An object written in an expression is the document with its members", "statement": "An object literal whose members have values is a document that has exactly the names written, each with the last value written for it; the members are in alphabetical order, so that the order in which they are written does not count and a member behind a later one of the same name is not seen. Amounts appear as numbers, dates as seconds, non-finite numbers as null. The first member that fails, from the left, fails the object. Reading a name gives the value written, keys() and values() list the members in the same order.", "quantifier": "all object literals with any expressions as members, nested or with repeated names, all environments and registries", "why_tests_cant": "There are unboundedly many members, names and expressions; a test shows a few.", "anchors": ["src/runtime/evaluator.rs: eval", "src/runtime/evaluation/core.rs: eval_with_vars_and_custom", "src/runtime/method_calls/mod.rs: exec_method"]}
{"id": "C135", "title": "Functions, operators and methods work as the reference says", "statement": "What the reference documents of operators, functions and methods holds for all arguments: the words AND, OR and as are operators, COUNT counts the numbers among its arguments, INT gives the integer part, LEN, COMPACT, BETWEEN and PI exist, arrays can be spread into arrays, TIME uses its arguments, DATEADD and DATEDIFF work in days without a unit, texts are cast to arrays of characters, tests of numbers work with and without a question mark, and in map the members of an element can be used as variables. (It does not; each deviation is proved for all arguments.)", "quantifier": "all arguments, values of variables and environments", "why_tests_cant": "A test shows that one call deviates; here the deviation is shown for every call, with what happens instead.", "anchors": ["API_REFERENCE.md", "DOCUMENTATION.md", "src/parser.rs: parse", "src/runtime/array.rs: exec_array", "src/runtime/arithmetic.rs: exec_arithmetic", "src/runtime/datetime.rs: exec_datetime", "src/runtime/method_calls/mod.rs: exec_method", "src/runtime/type_casting.rs: cast_value"]}
{"id": "C136", "title": "Queries over the JSON input give what the path leads to", "statement": "With --json the document is :arguments, and a query JQ(:arguments, path) with a path of names, [*], positions and tests of a member gives the values of the nodes that the path leads to, in their order; SUM, AVG, MIN and MAX of the query are those of the numbers found, for none, one or many of them. A query of the result of a query is one query, and with names and positions JQ agrees with DIG. The queries of the guide for the line server work in the same way. (One node gives its value and not an array, so that a query that goes on with [*] misses it; at the line server :arguments is not bound and the queries of the guide fail on all data.)", "quantifier": "all documents, all paths of these steps, all environments and registries without an own JQ", "why_tests_cant": "A test fixes a document with a certain number of matches; the cases of no match and one match are packed differently.", "anchors": ["README.md", "DOCUMENTATION.md", "SERVER_USAGE_GUIDE.md", "src/runtime/jsonpath.rs: apply_jsonpath", "src/runtime/evaluator.rs: eval_function_call", "src/lib.rs: evaluate_with_json", "src/bin/sk_server.rs: process_request"]}
{"id": "C137", "title": "Numbers keep their values through texts", "statement": "The text of a number is read as exactly that number: a cast to String and back to Float, to_s and to_f, the text written in an expression, and the text given to sk as the value of a variable, for every double (in expressions every finite one). to_s writes whole numbers of any size with all their digits and nothing else, and casts and concatenation do so below 2^53 (minus zero is written -0). Amounts are written with two decimals by to_s and four by a cast, right to that precision. Different values have different debug texts, so that unique() keeps the first of each and cache keys tell requests apart. With correct rounding on the way back every finite number survives JSON, and a document that was read is read again unchanged after it is written.", "quantifier": "all doubles, amounts, values and documents", "why_tests_cant": "There are 2^64 doubles; a formatter or parser that is wrong in the last digit for a few of them passes every test with short numbers.", "anchors": ["src/runtime/type_casting.rs: cast_value", "src/runtime/method_calls/conversion_methods.rs: to_float", "src/bin/sk.rs: parse_value", "src/runtime/method_calls/array_methods.rs", "src/lexer.rs: Lexer::number"]}
{"id": "C138", "title": "What JSON does to numbers", "statement": "Numbers that pass through JSON come out as they went in, and a number in a JSON text is the one that the same digits stand for in an expression. In detail: a number written with digits that make at most 2^53, and scaled by a power of ten up to 22, is read from JSON as the double nearest to its value. A number with at most 15 digits (22 after the point) and a whole number up to 1801439850948198 come out of an object literal, of to_json, of variables and of requests exactly as they went in. Every other number between 10^-290 and 10^308 in magnitude comes back within one part in 2^50, and so does the value of any JSON number between 10^-288 and 10^308, however many digits it has.", "quantifier": "all JSON texts of numbers, all doubles, all values made of them", "why_tests_cant": "Numbers in tests have few digits; about one in ten doubles with 16 or 17 digits changes on its way through JSON, which no example with 0.1 or 12.5 shows.", "anchors": ["Cargo.toml", "src/lib.rs: evaluate_with_json", "src/lib.rs: json_to_value", "src/runtime/evaluation/core.rs: eval_with_vars_and_custom", "src/runtime/json.rs: exec_json"]}
{"id": "C139", "title": "The JSON that the tools print", "statement": "What sk --output-json prints after a successful run is one JSON text followed by a line break: an object with execution_time, result and type, where type names the type of the result; for every flat value of finite numbers, texts, booleans and nulls a program that reads JSON finds exactly that value in result, and one that rounds correctly finds every finite number exactly. What sk_client prints is a JSON text of the result that the server found. Indentation and line breaks stand between the parts only, never inside a text. After a failure nothing is printed on standard output.", "quantifier": "all command lines, results and documents", "why_tests_cant": "A reader of the output meets all texts (quotes, line breaks, control characters in keys and values) and all nestings; tests look at a handful of outputs.", "anchors": ["src/bin/sk.rs: format_json_output", "src/bin/sk_client.rs: send_request"]}
{"id": "C140", "title": "Expressions take no more room than their text", "statement": "A text of n characters is parsed to a tree of at most n nodes, so a tree that is stored or cached, and the nesting of its evaluation, are bounded by the length of the text; and the value of an expression without variables is bounded by a polynomial in the length of the text, so a limit on the length of expressions limits the memory of an evaluation.", "quantifier": "every text and every n", "why_tests_cant": "The claim compares all texts, of any length, with their trees and values; a test with a few expressions sees no growth.", "anchors": ["src/parser.rs: parse_unary, parse_atom, parse_assignment", "src/runtime/evaluator.rs: eval", "src/lib.rs: parse, evaluate, evaluate_with_assignments"]}
{"id": "C141", "title": "Evaluating while functions are registered", "statement": "While other threads register, replace and unregister custom functions, an evaluation gives the result of an evaluation with one registry that existed while it ran; functions that the expression does not call do not matter.", "quantifier": "every text, every environment and every sequence of registries that the calls of the evaluation may find", "why_tests_cant": "A test cannot register a function between two given calls of one evaluation, and cannot try all the orders in which this can happen.", "anchors": ["src/runtime/evaluator.rs: eval_function_call", "src/runtime/evaluation/core.rs: eval_function_call_with_custom", "src/custom.rs: FunctionRegistry", "src/lib.rs: evaluate_with_custom"]}
{"id": "C142", "title": "httpGet gives the page and asks for nothing else", "statement": "httpGet(url) in a JavaScript function runs one program, asks for that URL and no other, gives the page as text if there is one, and otherwise a text by which the failure can be told.", "quantifier": "every URL, and every computer and set of pages that curl finds", "why_tests_cant": "The URL is passed on from the data of a formula; a test tries a few URLs against one server.", "anchors": ["src/js_plugin.rs: JavaScriptFunction::execute (httpGet)"]}
{"id": "C143", "title": "Rates of reuse and of hits", "statement": "The rate that the pool of contexts reports is the percentage of acquisitions served from the pool, and the rate that a thread's function cache reports is the percentage of its hits among hits and misses: between 0 and 100, 0 only without any, never 100, nearly exact, and moving in the right direction with each operation.", "quantifier": "every history of acquisitions, writes and drops, and of registrations, lookups and clearings by any number of threads, up to 2^53 counted operations", "why_tests_cant": "A test checks a few counts; rounding could put a rate above 100, or at 100 although something was missed, for counts no test tries.", "anchors": ["src/memory_pool.rs: VariableContextPool::stats", "src/concurrent_registry.rs: ThreadLocalFunctionCache::cache_stats"]}
{"id": "C144", "title": "Time saved by the evaluation cache", "statement": "The time saved that the HTTP server reports is the sum, over the answers given from the cache since it was last cleared, of the time that evaluating the answer took. It is never negative and falls only when the cache is cleared.", "quantifier": "every history of requests, stores in any order, clearings and changes of the functions and the clock, every duration and capacity", "why_tests_cant": "Durations are not under the control of a test, and which evaluation an answer came from depends on the interleaving of requests.", "anchors": ["src/bin/http_server/cache.rs: ExpressionCache::get, evaluate_cached"]}
{"id": "C145", "title": "The published description of the HTTP interface", "statement": "Every answer of the HTTP server to an operation of openapi.yml has a status and a document that openapi.yml describes for it, and every request that is as openapi.yml describes is understood.", "quantifier": "every request, with any headers, body and query, every state of the files, the cache and the functions, every configuration", "why_tests_cant": "A test checks the answers it provokes; clients generated from the description rely on all of them.", "anchors": ["openapi.yml", "src/bin/http_server/handlers.rs", "src/bin/http_server/js_management.rs", "src/bin/http_server/types.rs"]}
{"id": "C146", "title": "Stack needed for parsing", "statement": "Whatever the size of the stack, parsing a text gives the result that it gives on an unlimited one or exhausts the stack, and more stack never changes a result. How much is needed depends on how many characters of the text can nest an expression (brackets, ?, ^, !, + and -), not on its length: thirteen nested calls, and at most thirteen more for each, are enough. Nothing limits the nesting: a one in n pairs of parentheses needs exactly 13(n+1) nested calls, so that for every stack there is a short valid expression that exhausts it, which ends the process.", "quantifier": "every text, valid or not, and every size of the stack", "why_tests_cant": "A test nests to some depth on the stack of the test; whether a text ends the server depends on texts of every depth and stacks of every size.", "anchors": ["src/parser.rs", "src/lib.rs:42-48"]}
{"id": "C147", "title": "Stack needed for evaluation", "statement": "Whatever the size of the stack, evaluating a text gives the result that it gives on an unlimited one or exhausts the stack, and more stack never changes a result. It takes as many nested calls of the evaluator as the tree of the text is deep: with a stack for these, and for parsing, every entry point gives the result it would give on an unlimited stack, and thirteen such calls per character of the text are always enough. An expression whose parts are all evaluated needs exactly its depth: with less the stack is exhausted. Nothing limits the depth, and a text does not have to nest to be deep: 1*1*...*1 with n operators, which is parsed on a stack of fixed size, takes n+1 nested calls, so for every stack there is a flat valid expression that exhausts it, which ends the process. Copying values, which every use of a variable does, takes stack of its own, which the text does not bound: a value needs exactly as many nested calls as it has levels, and REDUCE(:xs,[:acc],1) makes a value of n levels out of flat data of n elements, for every n, with a fixed number of calls of the parser and the evaluator.", "quantifier": "every text, every set of variables and functions, and every size of the stack", "why_tests_cant": "A test evaluates texts of some length on the stack of the test; whether a text ends the server depends on texts of every length and stacks of every size.", "anchors": ["src/runtime/evaluator.rs:97-218", "src/runtime/evaluation/core.rs:111-286", "src/runtime/evaluation/assignments.rs", "src/lib.rs:42-199", "src/types.rs:1-11"]}
{"id": "C148", "title": "Expressions can be rewritten by the identities of arithmetic, logic and choice", "statement": "For all numbers, infinities and NaN included: --a and +a are a, a - b is a + -b, a sign can be taken out of products and quotients (and of sums and differences that are not zero); a * 1, a / 1 and a - 0 are a, a * -1 is -a, a * 2 is a + a, a + 0 is a unless a is -0; a - a is 0, a / a is 1 and a * 0 is a zero exactly where a is finite (and not zero, for the quotient), otherwise NaN. Expressions that are true or false obey Boolean algebra, && and || are choices. A choice can be made outside of whatever is done with its result, with the same failures; !c ? a : b is c ? b : a; asking the same condition again changes nothing. a < b ? a : b is MIN(a, b), a < b ? b : a is MAX(a, b), a < 0 ? -a : a is ABS(a), zeros aside. Sums and products cannot be regrouped, multiplied out or divided and multiplied back.", "quantifier": "all expressions for the operands that are worth numbers or truth values (for choices all expressions, failing ones included), all variables and custom functions other than MIN, MAX, ABS where these are named", "why_tests_cant": "The operands range over all pairs of doubles with their signs of zero, infinities and roundings, and over expressions of any size.", "anchors": ["src/runtime/evaluator.rs: eval_binary_op, eval_unary_op", "src/runtime/evaluator.rs: eval_function_call (__TERNARY__)", "src/runtime/arithmetic.rs: exec_arithmetic"]}
{"id": "C149", "title": "Sorting, turning round, removing repetitions and looking at the ends of arrays fit together", "statement": "The first element of an array turned round is its last and the other way round, and its length and what it contains are the same, for functions and methods. For arrays of numbers without NaN, SORT of a sorted array changes nothing and sorting downwards is sorting and turning round. If the array does not hold both zeros, SORT gives the same for every order of the same numbers, the method sorts as the function does, FIRST and LAST of the sorted array are MIN and MAX of the array, MIN, MAX, COUNT and CONTAINS do not notice the sorting, and UNIQUE and SORT can be exchanged. With both zeros the order before shows after sorting.", "quantifier": "all arrays (for sorting, all arrays of doubles without NaN) of any length, and all reorderings of them", "why_tests_cant": "Arrays have any length, and the laws compare two programs over every reordering of every array of doubles.", "anchors": ["src/runtime/array.rs: exec_array (FIRST, LAST, CONTAINS, COUNT, UNIQUE, SORT, REVERSE)", "src/runtime/method_calls/array_methods.rs: sort, reverse, first, last", "src/runtime/arithmetic.rs: MIN, MAX"]}
{"id": "C150", "title": "Calls on texts can be rewritten by the usual laws", "statement": "A part of a part is the part with the smaller count (LEFT, RIGHT), SUBSTRING(s, n, m) is LEFT(SUBSTRING(s, n), m), positions of SUBSTRING add up, MID(s, n + 1, m) is SUBSTRING(s, n, m). LEFT and RIGHT with counts that make the length, and LEFT and SUBSTRING, put together are the text; REPLACE is LEFT, the new text and the rest put together; of two texts put together each is found again by its LENGTH. TRIM again changes nothing and does not see white space put around. INCLUDES is an order of which all parts taken out are instances. SUBSTITUTE of a part by itself or of a part not there changes nothing; of a character it can be done in the pieces, leaves no such character and can be undone; the number of pieces of SPLIT says how often it replaced and how the length changes. Turned round, a text begins with what it ended with and keeps its parts and length.", "quantifier": "all texts of fewer than 2^63 characters (2^53 where LENGTH is a count), all finite counts, all replacements", "why_tests_cant": "The laws compare two programs over all texts and counts, with characters of several bytes, positions beyond the end and overlapping occurrences.", "anchors": ["src/runtime/string.rs: exec_string (LEFT, RIGHT, MID, SUBSTRING, REPLACE, SUBSTITUTE, SPLIT, TRIM, INCLUDES, CONCAT, LENGTH)", "src/runtime/method_calls/string_methods.rs: reverse, starts_with, ends_with, includes, trim, length"]}
{"id": "C151", "title": "Rounding to whole numbers, absolute values and signs fit together", "statement": "What FLOOR, INT, CEIL, CEILING or ROUND has made whole none of them changes again, infinities, NaN and the sign of zero included. FLOOR(-x) is -CEIL(x) and CEIL(-x) is -FLOOR(x), ROUND(-x) is -ROUND(x), ABS(-x) and ABS(ABS(x)) are ABS(x). x.int() is FLOOR(x) where x >= 0 and CEIL(x) where x <= 0, and ABS(x.int()) is FLOOR(ABS(x)). FLOOR(x) <= x <= CEIL(x), ROUND(x) is one of the two, they are equal exactly for whole numbers and differ by one otherwise. FLOOR(x + 1) is not always FLOOR(x) + 1.", "quantifier": "all doubles, infinities, NaN and both zeros included (finite ones in the last law)", "why_tests_cant": "The laws hold bit by bit over all 2^64 doubles.", "anchors": ["src/runtime/arithmetic.rs: exec_arithmetic (FLOOR, INT, CEIL, CEILING, ROUND, ABS)", "src/runtime/method_calls/mod.rs: int", "src/runtime/evaluator.rs: eval_unary_op"]}
{"id": "C152", "title": "Adding times, taking differences and reading dates fit together", "statement": "Weeks, days, hours, minutes and seconds can be added by DATEADD in any order, the same unit twice is the sum at once, and what was added can be taken away. From the 1st to the 28th of a month the same holds of months. A year is twelve months, whatever the day, and DATEDIFF finds the months that were added. DATEDIFF the other way round has the other sign, is 0 from a time to itself, not negative into the future, and grows with the later time. In seconds, months and years it adds up over a time between; in minutes, hours, days and weeks it adds up but for at most one. In months and years it is the difference of what YEAR and MONTH read. From the 29th of a month on, adding months twice is not adding their sum.", "quantifier": "all supported times, all counts of units that lead to supported times, all names of units", "why_tests_cant": "The laws range over all pairs and triples of dates over half a million years and all counts.", "anchors": ["src/runtime/datetime.rs: exec_datetime (DATEADD, DATEDIFF, YEAR, MONTH)"]}
{"id": "C153", "title": "Calls of the logical functions can be rewritten by the laws of logic", "statement": "For AND and OR it does not matter how often, in which order and how grouped the arguments are given. They distribute over and absorb each other, and NOT turns one into the other of the negations. XOR does not depend on order or grouping, moves NOT outside, and can be written with AND, OR and NOT. A condition of IF may be negated by exchanging the branches, and be split when it is an AND, an OR, an XOR or an IF. IFS is the IFs one after the other, so rules can be split off, merged with OR, and dropped when their condition was asked before. On truth values AND, OR, NOT, XOR and IF do what &&, ||, !, != and ? : do. XOR of three arguments is refused.", "quantifier": "all values, of every kind, as arguments; all lists of arguments; for the operators all expressions that are true or false, under every registry that does not replace the functions", "why_tests_cant": "Lists of arguments are unbounded and values of every kind are allowed where a condition is expected.", "anchors": ["src/runtime/logical.rs: exec_logical", "src/runtime/evaluator.rs: eval_binary_op, eval_unary_op"]}
{"id": "C154", "title": "Changing the sign of all numbers changes the sign of their statistics", "statement": "If the numbers and amounts in the arguments, at any depth, are those of other arguments with the other sign, then SUM, AVG, MEDIAN and MODE.SNGL have the other sign, MIN is MAX and MAX is MIN with the other sign (all up to the sign of zero), VARP and STDEVP are the same to the last bit, and PRODUCT is the same or has the other sign as the numbers are even or odd in number.", "quantifier": "all nestings of arguments, all doubles including infinities (and NaN, but for the median), all lengths", "why_tests_cant": "Roundings of every intermediate result must be symmetric, for every list.", "anchors": ["src/runtime/arithmetic.rs: exec_arithmetic (SUM, AVG, MIN, MAX, PRODUCT)", "src/runtime/statistical.rs: exec_statistical (MEDIAN, MODE.SNGL, VAR.P, STDEV.P)"]}
{"id": "C155", "title": "Lending is borrowing with the other sign", "statement": "Changing the sign of the amounts given to PMT, FV and IPMT changes the sign of the result and nothing else, to the last bit and up to the sign of zero, for every rate, number of periods, period and kind of payment; what is refused is refused with the same message. An optional argument of PMT, FV and IPMT that is left out is zero, and the month of DB is 12.", "quantifier": "all doubles as rates, periods and amounts, all numbers of periods, every kind of value as the kind of payment", "why_tests_cant": "IPMT repeats a recurrence as often as its argument says, and every rounding on the way must be symmetric.", "anchors": ["src/runtime/financial.rs: exec_financial (PMT, FV, IPMT, DB)"]}
{"id": "C156", "title": "Slices compose", "statement": "For every array a and all numbers n, m counted from the beginning: a[:] is a, a[n:][m:] is a[n+m:], a[:n][:m] is a[:min(n,m)], a[:m][n:] is a[n:m] and a[n:][:m] is a[n:n+m], also where a bound lies behind the end. For a positive n, the first n elements of REVERSE(a) are its last n turned round, and so for the other three cuts. a[n:][m] has a value exactly when a[n+m] has, and it is the same one; a[:n][m] is a[m] for m below n and no value at n; LENGTH of a slice is what is left. F(...a[:i], ...a[i:]) is F(...a) for every built in function F that takes its arguments by value; a value is contained in a exactly when it is in a[:n] or in a[n:], and their counts add up.", "quantifier": "all arrays shorter than 2^63, all natural numbers as bounds", "why_tests_cant": "Bounds are clamped and counted from either end, so the laws have boundary cases at every length.", "anchors": ["src/runtime/utils.rs:slice_array", "src/runtime/utils.rs:clamp_index", "src/runtime/utils.rs:index_array"]}
{"id": "C157", "title": "Least, greatest, sums and averages of the parts of a collection", "statement": "MIN and MAX depend only on which numbers are given, not on their order, grouping or repetition. MIN of the MINs of any number of parts, each with a number in it, is MIN of all, and so for MAX. MAX is at most b exactly when every number is, and MIN at least b; also strictly. On numbers other than NaN they form a distributive lattice, and limiting a number to an interval can be written in either order. For integers whose magnitudes add up to at most 2^53, the SUM of the SUMs of two parts is the SUM of all, and AVG is between MIN and MAX.", "quantifier": "all values nested in any way, all collections of parts, all doubles as bounds", "why_tests_cant": "The collections, their nesting and their number are unbounded, and NaN and signed zeros must be accounted for.", "anchors": ["src/runtime/arithmetic.rs: exec_arithmetic (SUM, AVG, MIN, MAX)"]}
