import Verif.Model.Lib
import Verif.Model.Cli
import Verif.Model.JsonText
import Verif.Model.JsonRead
import Verif.Spec.JsonPath
import Verif.Base.KernelRfl
/-! The model run on the assertions of the test suite of the repository. These are tests of the model, not proofs of properties: they
show that the model answers as the repository's own tests say the program answers. The functions the model leaves open (`Ext`) are given here as
computable functions, as far as the tests need them; no theorem elsewhere depends on them. -/

namespace RepoTests

/-! ### The libraries, computed -/

/-- The decimal digits of a natural number, at least `k` of them. -/
def padded (k n : Nat) : Str :=
  let s := Nat.toDigits 10 n
  List.replicate (k - s.length) '0' ++ s

/-- `n / 10^k` in decimal, without an exponent and without zeros at the end. -/
def decimal (n k : Nat) : Str :=
  let s := padded (k + 1) n
  let whole := s.take (s.length - k)
  let frac := ((s.drop (s.length - k)).reverse.dropWhile (· = '0')).reverse
  if frac = [] then whole else whole ++ '.' :: frac

/-- The shortest decimal that is read as `q > 0`, among those with at most `k + fuel` decimals. -/
def shortest (q : Rat) : Nat → Nat → Str
  | 0, k => decimal (F64.roundEven (q * 10 ^ k)).toNat k
  | fuel + 1, k =>
    let n := F64.roundEven (q * 10 ^ k)
    if F64.round ((n : Rat) / 10 ^ k) = .fin q then decimal n.toNat k else shortest q fuel (k + 1)

/-- `f64` `Display`. -/
def fmt : F64 → Str
  | .nan => c!"NaN"
  | .inf s => if s then c!"-inf" else c!"inf"
  | .zero s => if s then c!"-0" else c!"0"
  | .fin q => if 0 < q then shortest q 30 0 else '-' :: shortest (-q) 30 0

/-- `f64` `Debug`, and the JSON text of a double, for numbers of ordinary size. -/
def dbg (x : F64) : Str :=
  let s := fmt x
  if x.isFinite && !s.any (· = '.') then s ++ c!".0" else s

/-- The decimal with `k` places, zeros kept. -/
def fixedPos (k : Nat) (q : Rat) : Str :=
  let n := (F64.roundEven (q * 10 ^ k)).toNat
  let s := padded (k + 1) n
  if k = 0 then s else s.take (s.length - k) ++ '.' :: s.drop (s.length - k)

/-- `format!("{:.k}", x)`. -/
def fmtFix (k : Nat) : F64 → Str
  | .fin q => if 0 < q then fixedPos k q else '-' :: fixedPos k (-q)
  | .zero s => if s then '-' :: fixedPos k 0 else fixedPos k 0
  | x => fmt x

/-- The greatest number below `2^bits` whose `n`-th power is at most `m`. -/
def rootNat (n m : Nat) : Nat → Nat → Nat
  | 0, acc => acc
  | b + 1, acc => if (acc + 2 ^ b) ^ n ≤ m then rootNat n m b (acc + 2 ^ b) else rootNat n m b acc

/-- The `n`-th root of a positive number, with 80 binary places. -/
def rootRat (n : Nat) (q : Rat) : Rat := (rootNat n (q * 2 ^ (80 * n)).floor.toNat 200 0 : Rat) / 2 ^ 80

/-- `f64::sqrt`. -/
def sqrt : F64 → F64
  | .fin q => if 0 < q then F64.round (rootRat 2 q) else .nan
  | .inf s => if s then .nan else .inf false
  | x => x

/-- `f64::powi`. -/
def powi : F64 → Int → F64
  | _, 0 => F64.round 1
  | .fin q, n => F64.round (q ^ n)
  | .zero _, n => if 0 < n then .zero false else .inf false
  | x, _ => x

/-- `f64::powf` for whole exponents and for those of the form `1/n`. -/
def powf (a b : F64) : F64 :=
  match b with
  | .zero _ => F64.round 1
  | .fin r =>
    if r.den = 1 then powi a r.num
    else match a with
      | .fin q => if 0 < q ∧ 0 < r then F64.round (rootRat (F64.roundEven (1 / r)).toNat q) else .nan
      | x => x
  | _ => .nan

/-- How doubles are written and read in JSON. -/
def floats : JsonText.Floats := ⟨dbg, JsonText.Reader.read⟩

/-- A path as steps: names, `[*]` and tests of a member for a text. -/
def steps : Nat → Str → Option (List JsonPath.Step)
  | 0, _ => none
  | _ + 1, [] => some []
  | n + 1, '.' :: s =>
    let k := s.takeWhile fun c => c.isAlphanum || c = '_'
    (steps n (s.drop k.length)).map (.member k :: ·)
  | n + 1, '[' :: '*' :: ']' :: s => (steps n s).map (.every :: ·)
  | n + 1, '[' :: '?' :: '(' :: '@' :: '.' :: s =>
    let k := s.takeWhile fun c => c.isAlphanum || c = '_'
    let s := s.drop k.length
    if c!" == '".isPrefixOf s then
      let t := (s.drop 5).takeWhile (· ≠ '\'')
      let s := (s.drop 5).drop t.length
      if c!"')]".isPrefixOf s then (steps n (s.drop 3)).map (.whose k t :: ·) else none
    else none
  | _, _ => none

/-- `JsonPath::query`, for those paths. -/
def query (j : Json) : Str → Except Str (List Json)
  | '$' :: s => match steps (s.length + 1) s with
    | some ss => .ok (JsonPath.select ss [j])
    | none => .error c!"bad path"
  | _ => .error c!"bad path"

/-- The world of the tests; the clock stands at noon of 15 June 2025 (UTC). -/
def world : Ext where
  fmt := fmt
  fmtFix := fmtFix
  dbgNum := dbg
  plainUni := fun _ => true
  powf := powf
  pow10 := fun k => F64.round (10 ^ k)
  powi := powi
  sqrt := sqrt
  sin := fun x => x
  cos := fun x => x
  tan := fun x => x
  upperUni := fun s => s.map Str.asciiUpC
  lowerUni := fun s => s.map Str.asciiLowC
  isAlnumUni := fun _ => true
  isAlphaUni := fun _ => true
  jsonParse := fun s => match JsonText.parse floats s with
    | some j => .ok j
    | none => .error c!"not JSON"
  jsonPrint := JsonText.print floats
  jsonPath := query
  sortUnspecified := fun xs => .ok xs
  now := 1749988800
  today := 1749945600
  secsOfDay := 43200

/-! ### The tests -/

/-- Which function of the library a test calls. -/
inductive How where
  | plain
  | vars (l : List (Str × Value))
  | program (l : List (Str × Value))
  | json (text : Str)

/-- What a test asserts of the answer. -/
inductive Want where
  /-- this value -/
  | is (v : Value)
  /-- a number that is not further from this one -/
  | near (q tol : Rat)
  /-- an array of this length -/
  | items (n : Nat)
  /-- a date and time -/
  | time
  /-- a number between these, the bounds not included -/
  | between (lo hi : Rat)
  /-- any value -/
  | works
  /-- an error -/
  | fails

/-- A test. -/
structure Case where
  how : How
  text : Str
  want : Want

mutual
/-- Equality of the values the tests compare. -/
def same : Value → Value → Bool
  | .num x, .num y => decide (x = y)
  | .str s, .str t => decide (s = t)
  | .json s, .json t => decide (s = t)
  | .bool a, .bool b => a == b
  | .null, .null => true
  | .arr l, .arr r => sameAll l r
  | _, _ => false
/-- Item by item. -/
def sameAll : List Value → List Value → Bool
  | [], [] => true
  | a :: l, b :: r => same a b && sameAll l r
  | _, _ => false
end

/-- Variables from a list. -/
def envOf (l : List (Str × Value)) : Env := fun n => l.lookup n

/-- What the model answers. -/
def answer (c : Case) : Res Value :=
  match c.how with
  | .plain => Lib.evaluate world c.text
  | .vars l => Lib.evaluateWith world c.text (envOf l)
  | .program l => Lib.evaluateWithAssignments world c.text (envOf l)
  | .json t => Lib.evaluateWithJson world c.text t

/-- Whether an answer is what the test asserts. -/
def meets : Want → Res Value → Bool
  | .is v, .ok w => same v w
  | .near q tol, .ok (.num x) => x.isFinite && decide (x.toRat - q ≤ tol ∧ q - x.toRat ≤ tol)
  | .items n, .ok (.arr l) => l.length == n
  | .time, .ok (.dt _) => true
  | .between lo hi, .ok (.num x) => x.isFinite && decide (lo < x.toRat ∧ x.toRat < hi)
  | .works, .ok _ => true
  | .fails, .error (.err _ _ _) => true
  | _, _ => false

/-- The model passes a test. -/
def passes (c : Case) : Bool := meets c.want (answer c)

/-- `/repo/tests/arithmetic.rs`. -/
def arithmetic : List Case := [
  ⟨.plain, c!"2 + 3 * 4", .near (14) 1e-9⟩,
  ⟨.plain, c!"(2 + 3) * 4", .near (20) 1e-9⟩,
  ⟨.plain, c!"2 ^ 3 ^ 2", .near (512) 1e-9⟩,
  ⟨.plain, c!"-3 ^ 2", .near (-9) 1e-9⟩,
  ⟨.plain, c!"(-3) ^ 2", .near (9) 1e-9⟩,
  ⟨.plain, c!"= 10 + 20 * 3", .near (70) 1e-9⟩,
  ⟨.vars [(c!"x", (.num (F64.round (3)))), (c!"y", (.num (F64.round (10))))], c!"=SUM(:x, 5, 7)", .near (15) 1e-9⟩,
  ⟨.vars [(c!"x", (.num (F64.round (3)))), (c!"y", (.num (F64.round (10))))], c!":y + SUM(1, 2) * 3", .near (19) 1e-9⟩,
  ⟨.vars [(c!"x", (.num (F64.round (3)))), (c!"y", (.num (F64.round (10))))], c!"SUM()", .near (0) 1e-9⟩,
  ⟨.plain, c!"SUM([1, 2, 3])", .near (6) 1e-9⟩,
  ⟨.vars [(c!"nums", (.arr [(.num (F64.round (1))), (.num (F64.round (4)))]))], c!"SUM(:nums, [5, 10])", .near (20) 1e-9⟩,
  ⟨.plain, c!"AVG(1, 2, 3, 4)", .near (5 / 2) 1e-9⟩,
  ⟨.plain, c!"MIN([3, 5, 1, 9])", .near (1) 1e-9⟩,
  ⟨.plain, c!"MAX(3, 5, 1, 9)", .near (9) 1e-9⟩,
  ⟨.plain, c!"AVG([2, 4, 6])", .near (4) 1e-9⟩,
  ⟨.plain, c!"SUM([2, 4, 6])", .near (12) 1e-9⟩,
  ⟨.plain, c!"ROUND(3.14159, 2)", .near (157 / 50) 1e-9⟩,
  ⟨.plain, c!"ABS(-10)", .near (10) 1e-9⟩,
  ⟨.plain, c!"SQRT(9)", .near (3) 1e-9⟩,
  ⟨.plain, c!"POW(2, 8)", .near (256) 1e-9⟩,
  ⟨.plain, c!"LENGTH([1,2,3,4])", .near (4) 1e-9⟩,
  ⟨.plain, c!"PRODUCT(2, 3, 4)", .near (24) 1e-9⟩,
  ⟨.plain, c!"MULTIPLY(2, 3, 4)", .near (24) 1e-9⟩,
  ⟨.plain, c!"PRODUCT([2, 3, 4])", .near (24) 1e-9⟩,
  ⟨.plain, c!"MULTIPLY([2, 3, 4])", .near (24) 1e-9⟩,
  ⟨.plain, c!"PRODUCT()", .near (1) 1e-9⟩,
  ⟨.plain, c!"2 > 1", .is (.bool true)⟩,
  ⟨.plain, c!"2 == 2", .is (.bool true)⟩,
  ⟨.plain, c!"2 < 1", .is (.bool false)⟩,
  ⟨.plain, c!"(2 > 1) AND (1 < 2)", .is (.bool true)⟩,
  ⟨.plain, c!"(2 > 3) || (1 < 2)", .is (.bool true)⟩,
  ⟨.plain, c!"! (2 < 1)", .is (.bool true)⟩,
  ⟨.plain, c!"1 < 2 ? 10 : 20", .near (10) 1e-9⟩,
  ⟨.plain, c!"(-3.7).abs().round(1)", .near (37 / 10) 1e-9⟩,
  ⟨.plain, c!"[1,2,3,4].length().positive?", .is (.bool true)⟩,
  ⟨.plain, c!"[1,2,2,3].unique().sort().sum() ", .near (6) 1e-9⟩,
  ⟨.plain, c!"[5,1,9].min()", .near (1) 1e-9⟩,
  ⟨.plain, c!"[5,1,9].max()", .near (9) 1e-9⟩,
  ⟨.plain, c!"[10,20,30][0]", .near (10) 1e-9⟩,
  ⟨.plain, c!"[10,20,30][-1]", .near (30) 1e-9⟩,
  ⟨.plain, c!"[1,2,3,4,5][1:3]", .is (.arr [(.num (F64.round (2))), (.num (F64.round (3)))])⟩,
  ⟨.plain, c!"[1,2,3,4][:2]", .is (.arr [(.num (F64.round (1))), (.num (F64.round (2)))])⟩,
  ⟨.plain, c!"'42'::Integer", .near (42) 1e-9⟩,
  ⟨.plain, c!"TRUE::Float", .is (.num (F64.round (1)))⟩,
  ⟨.plain, c!"0::Boolean", .is (.bool false)⟩,
  ⟨.plain, c!"123::String", .is (.str c!"123")⟩,
  ⟨.plain, c!"SUMIF([10, 20, 30, 40], \">25\")", .near (70) 1e-9⟩,
  ⟨.plain, c!"SUMIF([10, 20, 30, 40], \"<25\")", .near (30) 1e-9⟩,
  ⟨.plain, c!"SUMIF([10, 20, 30, 40], \"=20\")", .near (20) 1e-9⟩,
  ⟨.plain, c!"SUMIF([10, 20, 30, 40], \"<>20\")", .near (80) 1e-9⟩,
  ⟨.plain, c!"SUMIF([10, 20, 30, 40], \">=20\")", .near (90) 1e-9⟩,
  ⟨.plain, c!"SUMIF([10, 20, 30, 40], \"<=20\")", .near (30) 1e-9⟩,
  ⟨.vars [(c!"range", (.arr [(.num (F64.round (10))), (.num (F64.round (30))), (.num (F64.round (50)))])), (c!"sum_range", (.arr [(.num (F64.round (1))), (.num (F64.round (2))), (.num (F64.round (3)))]))], c!"SUMIF(:range, \">20\", :sum_range)", .near (5) 1e-9⟩,
  ⟨.plain, c!"SUMIF([10, 20, 30, 40], 20)", .near (20) 1e-9⟩]

/-- `/repo/tests/arrays.rs`. -/
def arrays : List Case := [
  ⟨.plain, c!"ARRAY(1, 2, 3)", .items 3⟩,
  ⟨.plain, c!"FIRST([9,8,7])", .is (.num (F64.round (9)))⟩,
  ⟨.plain, c!"LAST([9,8,7])", .is (.num (F64.round (7)))⟩,
  ⟨.plain, c!"CONTAINS([1,2,3], 2)", .is (.bool true)⟩,
  ⟨.plain, c!"IN([1,2,3], 2)", .is (.bool true)⟩,
  ⟨.plain, c!"IN([1,2,3], 4)", .is (.bool false)⟩,
  ⟨.plain, c!"COUNT([1,2,3,4,5])", .is (.num (F64.round (5)))⟩,
  ⟨.plain, c!"COUNT([])", .is (.num (F64.round (0)))⟩,
  ⟨.plain, c!"UNIQUE([1,2,2,3])", .is (.arr [(.num (F64.round (1))), (.num (F64.round (2))), (.num (F64.round (3)))])⟩,
  ⟨.plain, c!"SORT([3,1,2])", .is (.arr [(.num (F64.round (1))), (.num (F64.round (2))), (.num (F64.round (3)))])⟩,
  ⟨.plain, c!"SORT([3,1,2], 'DESC')", .is (.arr [(.num (F64.round (3))), (.num (F64.round (2))), (.num (F64.round (1)))])⟩,
  ⟨.plain, c!"REVERSE([1,2,3])", .is (.arr [(.num (F64.round (3))), (.num (F64.round (2))), (.num (F64.round (1)))])⟩,
  ⟨.plain, c!"JOIN([1,2,3], '-')", .is (.str c!"1-2-3")⟩,
  ⟨.plain, c!"SUM(...[1,2,3])", .is (.num (F64.round (6)))⟩,
  ⟨.plain, c!"CONCAT(...['a','b','c'])", .is (.str c!"abc")⟩,
  ⟨.plain, c!"[30,60,80,100].filter(:x > 50).map(:x * 0.9).sum() ", .near (216) 1e-9⟩,
  ⟨.plain, c!"[1,2,3].reduce(:acc + :x, 0)", .is (.num (F64.round (6)))⟩,
  ⟨.plain, c!"FILTER([1,2,3,4], :x % 2 == 0)", .is (.arr [(.num (F64.round (2))), (.num (F64.round (4)))])⟩,
  ⟨.plain, c!"MAP([1,2,3], :x * 10)", .is (.arr [(.num (F64.round (10))), (.num (F64.round (20))), (.num (F64.round (30)))])⟩,
  ⟨.plain, c!"REDUCE([1,2,3], :acc + :x, 0)", .is (.num (F64.round (6)))⟩,
  ⟨.plain, c!"SUMIF([1, -2, 3, -4], :x > 0)", .is (.num (F64.round (4)))⟩,
  ⟨.plain, c!"AVGIF([1, 3, 5, -1], :x > 0)", .near (3) 1e-9⟩,
  ⟨.plain, c!"COUNTIF([1,2,3,4], :x % 2 == 0)", .is (.num (F64.round (2)))⟩,
  ⟨.plain, c!"FLATTEN([1,[2,[3]],4])", .is (.arr [(.num (F64.round (1))), (.num (F64.round (2))), (.num (F64.round (3))), (.num (F64.round (4)))])⟩,
  ⟨.plain, c!"[1,[2,[3]],4].flatten()", .is (.arr [(.num (F64.round (1))), (.num (F64.round (2))), (.num (F64.round (3))), (.num (F64.round (4)))])⟩]

/-- `/repo/tests/assignments.rs`. -/
def assignments : List Case := [
  ⟨.program [], c!":x := 42; :x", .is (.num (F64.round (42)))⟩,
  ⟨.program [], c!":x := 5; :y := 10; :x + :y", .is (.num (F64.round (15)))⟩,
  ⟨.program [], c!":x := 2 + 3; :y := :x * 2; :y", .is (.num (F64.round (10)))⟩,
  ⟨.program [], c!":data := [10, 20, 30, 40, 50]; :avg := SUM(:data) / LENGTH(:data); :total := :avg * COUNT(:data)", .is (.num (F64.round (150)))⟩,
  ⟨.program [], c!":x := 42;", .is (.num (F64.round (42)))⟩,
  ⟨.program [], c!"2 + 3 * 4", .is (.num (F64.round (14)))⟩,
  ⟨.program [(c!"base", (.num (F64.round (100))))], c!":multiplier := 2; :base * :multiplier", .is (.num (F64.round (200)))⟩,
  ⟨.program [], c!":arr := [1, 2, 3, 4, 5]; :size := COUNT(:arr); :has_three := IN(:arr, 3); IF(:has_three, :size, 0)", .is (.num (F64.round (5)))⟩,
  ⟨.program [], c!":rate := 0.05; :periods := 10; :payment := -1000; :future := FV(:rate, :periods, :payment); :future", .near (1257789 / 100) (1)⟩,
  ⟨.program [(c!"global_var", (.num (F64.round (1))))], c!":local_var := :global_var + 10; :another := :local_var * 2; :another", .is (.num (F64.round (22)))⟩,
  ⟨.program [], c!":x := 42", .is (.num (F64.round (42)))⟩]

/-- `/repo/tests/conversion_methods.rs`. -/
def conversionMethods : List Case := [
  ⟨.plain, c!"NULL.to_s()", .is (.str c!"")⟩,
  ⟨.plain, c!"NULL.to_i()", .is (.num (F64.round (0)))⟩,
  ⟨.plain, c!"NULL.to_f()", .is (.num (F64.round (0)))⟩,
  ⟨.plain, c!"NULL.to_a()", .items 0⟩,
  ⟨.plain, c!"NULL.to_json()", .is (.json c!"{}")⟩,
  ⟨.plain, c!"NULL.to_bool()", .is (.bool false)⟩,
  ⟨.plain, c!"\"hello\".to_s()", .is (.str c!"hello")⟩,
  ⟨.plain, c!"\"123\".to_i()", .is (.num (F64.round (123)))⟩,
  ⟨.plain, c!"\"123.45\".to_f()", .is (.num (F64.round (2469 / 20)))⟩,
  ⟨.plain, c!"\"abc\".to_i()", .is (.num (F64.round (0)))⟩,
  ⟨.plain, c!"\"hi\".to_a()", .is (.arr [(.str c!"h"), (.str c!"i")])⟩,
  ⟨.plain, c!"\"\".to_bool()", .is (.bool false)⟩,
  ⟨.plain, c!"\"hello\".to_bool()", .is (.bool true)⟩,
  ⟨.plain, c!"123.to_s()", .is (.str c!"123")⟩,
  ⟨.plain, c!"123.45.to_s()", .is (.str c!"123.45")⟩,
  ⟨.plain, c!"123.45.to_i()", .is (.num (F64.round (123)))⟩,
  ⟨.plain, c!"123.45.to_f()", .is (.num (F64.round (2469 / 20)))⟩,
  ⟨.plain, c!"42.to_a()", .is (.arr [(.num (F64.round (42)))])⟩,
  ⟨.plain, c!"0.to_bool()", .is (.bool false)⟩,
  ⟨.plain, c!"123.to_bool()", .is (.bool true)⟩,
  ⟨.plain, c!"true.to_s()", .is (.str c!"true")⟩,
  ⟨.plain, c!"false.to_s()", .is (.str c!"false")⟩,
  ⟨.plain, c!"true.to_i()", .is (.num (F64.round (1)))⟩,
  ⟨.plain, c!"false.to_i()", .is (.num (F64.round (0)))⟩,
  ⟨.plain, c!"true.to_f()", .is (.num (F64.round (1)))⟩,
  ⟨.plain, c!"false.to_f()", .is (.num (F64.round (0)))⟩,
  ⟨.plain, c!"true.to_bool()", .is (.bool true)⟩,
  ⟨.plain, c!"false.to_bool()", .is (.bool false)⟩,
  ⟨.plain, c!"[1, 2, 3].to_s()", .is (.str c!"[1, 2, 3]")⟩,
  ⟨.plain, c!"[1, 2, 3].to_i()", .is (.num (F64.round (3)))⟩,
  ⟨.plain, c!"[].to_i()", .is (.num (F64.round (0)))⟩,
  ⟨.plain, c!"[1, 2, 3].to_a()", .is (.arr [(.num (F64.round (1))), (.num (F64.round (2))), (.num (F64.round (3)))])⟩,
  ⟨.plain, c!"[].to_bool()", .is (.bool false)⟩,
  ⟨.plain, c!"[1].to_bool()", .is (.bool true)⟩,
  ⟨.plain, c!"NULL.to_string()", .is (.str c!"")⟩,
  ⟨.plain, c!"\"123\".to_int()", .is (.num (F64.round (123)))⟩,
  ⟨.plain, c!"\"123.45\".to_float()", .is (.num (F64.round (2469 / 20)))⟩,
  ⟨.plain, c!"\"hi\".to_array()", .is (.arr [(.str c!"h"), (.str c!"i")])⟩,
  ⟨.plain, c!"\"\".to_boolean()", .is (.bool false)⟩,
  ⟨.plain, c!"123.to_s().to_s()", .is (.str c!"123")⟩,
  ⟨.plain, c!"\"123\".to_i().to_f()", .is (.num (F64.round (123)))⟩,
  ⟨.plain, c!"\"hello\".to_a().length().to_bool()", .is (.bool true)⟩]

/-- `/repo/tests/null.rs`. -/
def nulls : List Case := [
  ⟨.plain, c!"NULL.nil?", .is (.bool true)⟩,
  ⟨.plain, c!"NULL.blank?", .is (.bool true)⟩,
  ⟨.plain, c!"\"\".present?", .is (.bool false)⟩,
  ⟨.plain, c!"\"hi\".present?", .is (.bool true)⟩,
  ⟨.plain, c!"[1, NULL, 2, NULL].compact().length()", .is (.num (F64.round (2)))⟩,
  ⟨.plain, c!"LENGTH(NULL)", .is (.num (F64.round (0)))⟩,
  ⟨.plain, c!"=CONCAT('a', NULL, 'b')", .is (.str c!"ab")⟩,
  ⟨.vars [(c!"name", .null)], c!"=:name.blank? ? 'Anonymous' : :name.upper()", .is (.str c!"Anonymous")⟩]

/-- `/repo/tests/includes_function.rs`. -/
def includesFunction : List Case := [
  ⟨.program [], c!":text := \"hello world\"; :text.includes(\"world\")", .is (.bool true)⟩,
  ⟨.program [], c!":text := \"hello world\"; :text.includes(\"xyz\")", .is (.bool false)⟩,
  ⟨.program [], c!":text := \"hello world\"; :text.includes(\"\")", .is (.bool true)⟩,
  ⟨.program [], c!":text := \"Hello World\"; :text.includes(\"hello\")", .is (.bool false)⟩,
  ⟨.program [], c!":text := \"Hello World\"; :text.includes(\"Hello\")", .is (.bool true)⟩,
  ⟨.program [], c!":text := \"programming\"; :text.includes(\"gram\")", .is (.bool true)⟩,
  ⟨.program [], c!"INCLUDES(\"hello world\", \"world\")", .is (.bool true)⟩,
  ⟨.program [], c!"INCLUDES(\"hello world\", \"xyz\")", .is (.bool false)⟩,
  ⟨.program [], c!"INCLUDES(\"hello world\", \"\")", .is (.bool true)⟩,
  ⟨.program [], c!"INCLUDES(\"Hello World\", \"hello\")", .is (.bool false)⟩,
  ⟨.program [], c!"INCLUDES(\"Hello World\", \"Hello\")", .is (.bool true)⟩,
  ⟨.program [], c!":text := \"hello world\"; :substring := \"world\"; INCLUDES(:text, :substring)", .is (.bool true)⟩,
  ⟨.program [], c!"INCLUDES(123, \"world\")", .fails⟩,
  ⟨.program [], c!":num := 123; :num.includes(\"1\")", .fails⟩,
  ⟨.program [], c!":text := \"hello\"; :text.includes(123)", .fails⟩,
  ⟨.program [], c!"INCLUDES(\"hello\")", .fails⟩,
  ⟨.program [], c!"INCLUDES(\"hello\", \"world\", \"extra\")", .fails⟩,
  ⟨.program [], c!":text := \"Hello World\"; :text.lower().includes(\"hello\")", .is (.bool true)⟩,
  ⟨.program [], c!":text := \"programming\"; :text.includes(\"gram\") ? \"found\" : \"not found\"", .is (.str c!"found")⟩]

/-- `/repo/tests/json_dig.rs`. -/
def jsonDig : List Case := [
  ⟨.program [], c!":obj := {\n        \"user\": { \"name\": \"Jane\", \"posts\": [{\"title\": \"First\"}, {\"title\": \"Second\"}] },\n        \"meta\": { \"active\": true }\n    }; DIG(:obj, ['user', 'posts', 1, 'title'])", .is (.str c!"Second")⟩,
  ⟨.program [], c!":obj := {\"a\": {\"b\": 1}}; DIG(:obj, ['a','x'], 'fallback')", .is (.str c!"fallback")⟩,
  ⟨.program [], c!":obj := NULL; :obj&.dig(['a','b'], 'def')", .is .null⟩]

/-- `/repo/tests/jsonpath.rs`. -/
def jsonpath : List Case := [
  ⟨.json c!"{\n        \"accounts\": [\n            {\n                \"id\": 1,\n                \"amount\": 300.1\n            },\n            {\n                \"id\": 4,\n                \"amount\": 890.1\n            }\n        ]\n    }", c!"SUM(JQ(:arguments, \"$.accounts[*].amount\"))", .near (5951 / 5) 1e-9⟩,
  ⟨.vars [(c!"arguments", (.json c!"{\n        \"accounts\": [\n            {\"amount\": 100.0},\n            {\"amount\": 200.0},\n            {\"amount\": 300.0}\n        ]\n    }"))], c!"SUM(JQ(:arguments, \"$.accounts[*].amount\"))", .near (600) 1e-9⟩,
  ⟨.json c!"{\n        \"scores\": [\n            {\"value\": 85},\n            {\"value\": 92},\n            {\"value\": 78},\n            {\"value\": 95}\n        ]\n    }", c!"AVG(JQ(:arguments, \"$.scores[*].value\"))", .near (175 / 2) 1e-9⟩,
  ⟨.json c!"{\n        \"temperatures\": [\n            {\"reading\": 22.5},\n            {\"reading\": 31.2},\n            {\"reading\": 18.7},\n            {\"reading\": 29.8}\n        ]\n    }", c!"MAX(JQ(:arguments, \"$.temperatures[*].reading\"))", .near (156 / 5) 1e-9⟩,
  ⟨.json c!"{\n        \"prices\": [\n            {\"cost\": 15.99},\n            {\"cost\": 8.50},\n            {\"cost\": 23.75},\n            {\"cost\": 12.30}\n        ]\n    }", c!"MIN(JQ(:arguments, \"$.prices[*].cost\"))", .near (17 / 2) 1e-9⟩,
  ⟨.json c!"{\n        \"departments\": [\n            {\n                \"name\": \"Sales\",\n                \"employees\": [\n                    {\"salary\": 50000},\n                    {\"salary\": 55000}\n                ]\n            },\n            {\n                \"name\": \"Engineering\",\n                \"employees\": [\n                    {\"salary\": 75000},\n                    {\"salary\": 80000},\n                    {\"salary\": 70000}\n                ]\n            }\n        ]\n    }", c!"SUM(JQ(:arguments, \"$.departments[*].employees[*].salary\"))", .near (330000) 1e-9⟩,
  ⟨.json c!"{\n        \"products\": [\n            {\"name\": \"A\", \"price\": 10, \"category\": \"electronics\"},\n            {\"name\": \"B\", \"price\": 20, \"category\": \"books\"},\n            {\"name\": \"C\", \"price\": 30, \"category\": \"electronics\"},\n            {\"name\": \"D\", \"price\": 15, \"category\": \"books\"}\n        ]\n    }", c!"SUM(JQ(:arguments, \"$.products[?(@.category == 'electronics')].price\"))", .near (40) 1e-9⟩]

/-- `/repo/tests/prd_cases.rs`. -/
def prdCases : List Case := [
  ⟨.plain, c!"=10 + 20 * 3", .near (70) 1e-9⟩,
  ⟨.plain, c!"=(10 + 20) * 3", .near (90) 1e-9⟩,
  ⟨.vars [(c!"price", (.num (F64.round (1999 / 100)))), (c!"quantity", (.num (F64.round (3)))), (c!"base_salary", (.num (F64.round (1000)))), (c!"bonus", (.num (F64.round (250))))], c!"=:price * :quantity", .near (5997 / 100) 1e-9⟩,
  ⟨.vars [(c!"price", (.num (F64.round (1999 / 100)))), (c!"quantity", (.num (F64.round (3)))), (c!"base_salary", (.num (F64.round (1000)))), (c!"bonus", (.num (F64.round (250))))], c!"=:base_salary + :bonus", .near (1250) 1e-9⟩,
  ⟨.plain, c!"=[1, 2, 3, 4, 5]", .items 5⟩,
  ⟨.vars [(c!"numbers", (.arr [.num (F64.round (1)), .num (F64.round (2)), .num (F64.round (3)), .num (F64.round (4)), .num (F64.round (5))])), (c!"items", (.arr [.num (F64.round (10)), .num (F64.round (20)), .num (F64.round (30)), .num (F64.round (40))])), (c!"array", (.arr [.num (F64.round (1)), .num (F64.round (2)), .num (F64.round (3))]))], c!"=:numbers[0]", .near (1) 1e-9⟩,
  ⟨.vars [(c!"numbers", (.arr [.num (F64.round (1)), .num (F64.round (2)), .num (F64.round (3)), .num (F64.round (4)), .num (F64.round (5))])), (c!"items", (.arr [.num (F64.round (10)), .num (F64.round (20)), .num (F64.round (30)), .num (F64.round (40))])), (c!"array", (.arr [.num (F64.round (1)), .num (F64.round (2)), .num (F64.round (3))]))], c!"=:items[1:3]", .is (.arr [(.num (F64.round (20))), (.num (F64.round (30)))])⟩,
  ⟨.vars [(c!"numbers", (.arr [.num (F64.round (1)), .num (F64.round (2)), .num (F64.round (3)), .num (F64.round (4)), .num (F64.round (5))])), (c!"items", (.arr [.num (F64.round (10)), .num (F64.round (20)), .num (F64.round (30)), .num (F64.round (40))])), (c!"array", (.arr [.num (F64.round (1)), .num (F64.round (2)), .num (F64.round (3))]))], c!"=SUM(...:array)", .near (6) 1e-9⟩,
  ⟨.vars [(c!"variable", (.num (F64.round (7))))], c!"=[1, \"text\", true, :variable]", .items 4⟩,
  ⟨.plain, c!"=SUM(1, 2, 3, 4, 5)", .near (15) 1e-9⟩,
  ⟨.vars [(c!"total", (.num (F64.round (314159 / 100000)))), (c!"name", (.str c!"World")), (c!"array", (.arr [.num (F64.round (1)), .num (F64.round (2)), .num (F64.round (3))]))], c!"=ROUND(:total, 2)", .near (157 / 50) 1e-9⟩,
  ⟨.vars [(c!"total", (.num (F64.round (314159 / 100000)))), (c!"name", (.str c!"World")), (c!"array", (.arr [.num (F64.round (1)), .num (F64.round (2)), .num (F64.round (3))]))], c!"=CONCAT(\"Hello, \", :name)", .is (.str c!"Hello, World")⟩,
  ⟨.vars [(c!"total", (.num (F64.round (314159 / 100000)))), (c!"name", (.str c!"World")), (c!"array", (.arr [.num (F64.round (1)), .num (F64.round (2)), .num (F64.round (3))]))], c!"=LENGTH(:array)", .near (3) 1e-9⟩,
  ⟨.vars [(c!"numbers", (.arr [.num (F64.round (5)), .num (F64.round (12)), .num (F64.round (30))]))], c!"=FILTER(:numbers, :x > 10)", .works⟩,
  ⟨.plain, c!"=0.nil?", .is (.bool false)⟩,
  ⟨.vars [(c!"some_var", (.num (F64.round (5)))), (c!"text", (.str c!"  hello  ")), (c!"number", (.num (F64.round (-314159 / 100000)))), (c!"array", (.arr [.num (F64.round (1)), .num (F64.round (2)), .num (F64.round (3))])), (c!"values", (.arr [.num (F64.round (-1)), .num (F64.round (2)), .num (F64.round (-3)), .num (F64.round (4))])), (c!"name", .null), (c!"prices", (.arr [.num (F64.round (10)), .num (F64.round (15))]))], c!"=:text.upper().trim()", .is (.str c!"HELLO")⟩,
  ⟨.vars [(c!"some_var", (.num (F64.round (5)))), (c!"text", (.str c!"  hello  ")), (c!"number", (.num (F64.round (-314159 / 100000)))), (c!"array", (.arr [.num (F64.round (1)), .num (F64.round (2)), .num (F64.round (3))])), (c!"values", (.arr [.num (F64.round (-1)), .num (F64.round (2)), .num (F64.round (-3)), .num (F64.round (4))])), (c!"name", .null), (c!"prices", (.arr [.num (F64.round (10)), .num (F64.round (15))]))], c!"=:number.abs().round(2)", .near (157 / 50) 1e-9⟩,
  ⟨.vars [(c!"some_var", (.num (F64.round (5)))), (c!"text", (.str c!"  hello  ")), (c!"number", (.num (F64.round (-314159 / 100000)))), (c!"array", (.arr [.num (F64.round (1)), .num (F64.round (2)), .num (F64.round (3))])), (c!"values", (.arr [.num (F64.round (-1)), .num (F64.round (2)), .num (F64.round (-3)), .num (F64.round (4))])), (c!"name", .null), (c!"prices", (.arr [.num (F64.round (10)), .num (F64.round (15))]))], c!"=:array.length().positive?", .is (.bool true)⟩,
  ⟨.vars [(c!"some_var", (.num (F64.round (5)))), (c!"text", (.str c!"  hello  ")), (c!"number", (.num (F64.round (-314159 / 100000)))), (c!"array", (.arr [.num (F64.round (1)), .num (F64.round (2)), .num (F64.round (3))])), (c!"values", (.arr [.num (F64.round (-1)), .num (F64.round (2)), .num (F64.round (-3)), .num (F64.round (4))])), (c!"name", .null), (c!"prices", (.arr [.num (F64.round (10)), .num (F64.round (15))]))], c!"=:values.filter(:x > 0).sum()", .near (6) 1e-9⟩,
  ⟨.vars [(c!"some_var", (.num (F64.round (5)))), (c!"text", (.str c!"  hello  ")), (c!"number", (.num (F64.round (-314159 / 100000)))), (c!"array", (.arr [.num (F64.round (1)), .num (F64.round (2)), .num (F64.round (3))])), (c!"values", (.arr [.num (F64.round (-1)), .num (F64.round (2)), .num (F64.round (-3)), .num (F64.round (4))])), (c!"name", .null), (c!"prices", (.arr [.num (F64.round (10)), .num (F64.round (15))]))], c!"=:name.blank? ? \"Anonymous\" : :name.upper()", .is (.str c!"Anonymous")⟩,
  ⟨.plain, c!"=[1, 2, 3, 4].sum()", .near (10) 1e-9⟩,
  ⟨.vars [(c!"some_var", (.num (F64.round (5)))), (c!"text", (.str c!"  hello  ")), (c!"number", (.num (F64.round (-314159 / 100000)))), (c!"array", (.arr [.num (F64.round (1)), .num (F64.round (2)), .num (F64.round (3))])), (c!"values", (.arr [.num (F64.round (-1)), .num (F64.round (2)), .num (F64.round (-3)), .num (F64.round (4))])), (c!"name", .null), (c!"prices", (.arr [.num (F64.round (10)), .num (F64.round (15))]))], c!"=:prices.map(:x * 1.1).sum().round(2)", .near (55 / 2) 1e-9⟩,
  ⟨.vars [(c!"score", (.num (F64.round (85)))), (c!"value", .null)], c!"=:score >= 90 ? \"A\" : (:score >= 80 ? \"B\" : \"C\")", .is (.str c!"B")⟩,
  ⟨.vars [(c!"score", (.num (F64.round (85)))), (c!"value", .null)], c!"=:value.nil? ? 0 : :value", .near (0) 1e-9⟩,
  ⟨.vars [(c!"score", (.num (F64.round (85)))), (c!"value", .null), (c!"text_number", (.str c!"42"))], c!"=:text_number::Integer + 10", .near (52) 1e-9⟩,
  ⟨.vars [(c!"score", (.num (F64.round (85)))), (c!"value", .null), (c!"text_number", (.str c!"42")), (c!"timestamp", (.num (F64.round (1690000000))))], c!"=:timestamp::DateTime", .works⟩,
  ⟨.vars [(c!"age", (.num (F64.round (20))))], c!"=IF(:age >= 18, 'Adult', 'Minor')", .works⟩,
  ⟨.vars [(c!"csv_data", (.str c!"1,2,3"))], c!"=:csv_data::Array", .works⟩,
  ⟨.vars [(c!"csv_data", (.str c!"1,2,3")), (c!"scores", (.arr [.str c!"1", .str c!"2", .str c!"3"]))], c!"=ROUND(AVG(:scores.map(:x::Integer)), 2)", .works⟩,
  ⟨.vars [(c!"items", (.arr [.num (F64.round (12)), .num (F64.round (100)), .num (F64.round (200)), .num (F64.round (4000))])), (c!"price", (.num (F64.round (10))))], c!"=:items.filter(:price > 100).map(:price * 0.9).sum()", .works⟩,
  ⟨.vars [(c!"items", (.arr [.num (F64.round (12)), .num (F64.round (100)), .num (F64.round (200)), .num (F64.round (4000))])), (c!"price", (.num (F64.round (10)))), (c!"sales", (.num (F64.round (12000))))], c!"=IF(SUM(:sales) > 10000, :sales * 0.1, :sales * 0.05)", .works⟩,
  ⟨.vars [(c!"items", (.arr [.num (F64.round (12)), .num (F64.round (100)), .num (F64.round (200)), .num (F64.round (4000))])), (c!"price", (.num (F64.round (10)))), (c!"sales", (.num (F64.round (12000)))), (c!"user_input", (.str c!"  hi  "))], c!"=IF(:user_input.blank?, \"default\", :user_input.trim().lower())", .works⟩]

/-- `/repo/tests/prd_comprehensive.rs`. -/
def prdComprehensive : List Case := [
  ⟨.plain, c!"=AND(TRUE, TRUE)", .is (.bool true)⟩,
  ⟨.plain, c!"=AND(TRUE, FALSE)", .is (.bool false)⟩,
  ⟨.plain, c!"=OR(FALSE, FALSE)", .is (.bool false)⟩,
  ⟨.plain, c!"=OR(TRUE, FALSE)", .is (.bool true)⟩,
  ⟨.plain, c!"=XOR(TRUE, TRUE)", .is (.bool false)⟩,
  ⟨.plain, c!"=XOR(TRUE, FALSE)", .is (.bool true)⟩,
  ⟨.plain, c!"=NOT(TRUE)", .is (.bool false)⟩,
  ⟨.plain, c!"=NOT(FALSE)", .is (.bool true)⟩,
  ⟨.plain, c!"=NOT(OR(FALSE, FALSE))", .is (.bool true)⟩,
  ⟨.plain, c!"=NOT(OR(TRUE, FALSE))", .is (.bool false)⟩,
  ⟨.plain, c!"=IF(5>3, \"A>B\", IF(5=3, \"A=B\", \"A<B\"))", .is (.str c!"A>B")⟩,
  ⟨.plain, c!"=IF(3>5, \"A>B\", IF(3=5, \"A=B\", \"A<B\"))", .is (.str c!"A<B")⟩,
  ⟨.plain, c!"=IF(10=10, \"A=B\", IF(10>10, \"A>B\", \"A<B\"))", .is (.str c!"A=B")⟩,
  ⟨.plain, c!"=IF(AND(95>=90, 95<=100), \"A\", IF(95>=80, \"B\", IF(95>=70, \"C\", IF(95>=60, \"D\", \"F\"))))", .is (.str c!"A")⟩,
  ⟨.plain, c!"=IF(AND(88>=90, 88<=100), \"A\", IF(88>=80, \"B\", IF(88>=70, \"C\", IF(88>=60, \"D\", \"F\"))))", .is (.str c!"B")⟩,
  ⟨.plain, c!"=IF(AND(72>=90, 72<=100), \"A\", IF(72>=80, \"B\", IF(72>=70, \"C\", IF(72>=60, \"D\", \"F\"))))", .is (.str c!"C")⟩,
  ⟨.plain, c!"=IF(AND(59>=90, 59<=100), \"A\", IF(59>=80, \"B\", IF(59>=70, \"C\", IF(59>=60, \"D\", \"F\"))))", .is (.str c!"F")⟩,
  ⟨.plain, c!"=IFS(5<10, \"Cold\", 5<20, \"Cool\", 5<30, \"Warm\", 5<40, \"Hot\", TRUE, \"Extreme\")", .is (.str c!"Cold")⟩,
  ⟨.plain, c!"=IFS(15<10, \"Cold\", 15<20, \"Cool\", 15<30, \"Warm\", 15<40, \"Hot\", TRUE, \"Extreme\")", .is (.str c!"Cool")⟩,
  ⟨.plain, c!"=IFS(25<10, \"Cold\", 25<20, \"Cool\", 25<30, \"Warm\", 25<40, \"Hot\", TRUE, \"Extreme\")", .is (.str c!"Warm")⟩,
  ⟨.plain, c!"=IFS(35<10, \"Cold\", 35<20, \"Cool\", 35<30, \"Warm\", 35<40, \"Hot\", TRUE, \"Extreme\")", .is (.str c!"Hot")⟩,
  ⟨.plain, c!"=IFS(45<10, \"Cold\", 45<20, \"Cool\", 45<30, \"Warm\", 45<40, \"Hot\", TRUE, \"Extreme\")", .is (.str c!"Extreme")⟩,
  ⟨.plain, c!"=(8+3*2)-MOD(8,3)", .near (12) 1e-6⟩,
  ⟨.plain, c!"=(15+4*2)-MOD(15,4)", .near (20) 1e-6⟩,
  ⟨.plain, c!"=(100+25*2)-MOD(100,25)", .near (150) 1e-6⟩,
  ⟨.plain, c!"=200*(1+0.15)", .near (230) 1e-6⟩,
  ⟨.plain, c!"=500*(1+0.07)", .near (535) 1e-6⟩,
  ⟨.plain, c!"=200*(1-0.15)", .near (170) 1e-6⟩,
  ⟨.plain, c!"=500*(1-0.07)", .near (465) 1e-6⟩,
  ⟨.plain, c!"=POWER(2,3)+SQRT(4)-ABS(-2)", .near (8) 1e-6⟩,
  ⟨.plain, c!"=POWER(3,3)+SQRT(9)-ABS(-3)", .near (27) 1e-6⟩,
  ⟨.plain, c!"=ROUND(1.2345,2)", .near (123 / 100) 1e-6⟩,
  ⟨.plain, c!"=ROUND(2.71828,2)", .near (68 / 25) 1e-6⟩,
  ⟨.plain, c!"=ROUND(3.14159,2)", .near (157 / 50) 1e-6⟩,
  ⟨.plain, c!"=ROUND(9.87654,2)", .near (247 / 25) 1e-6⟩,
  ⟨.plain, c!"=INT(5.9)", .near (5) 1e-6⟩,
  ⟨.plain, c!"=CEILING(5.9,1)", .near (6) 1e-6⟩,
  ⟨.plain, c!"=FLOOR(5.9,1)", .near (5) 1e-6⟩,
  ⟨.plain, c!"=INT(-3.2)", .near (-4) 1e-6⟩,
  ⟨.plain, c!"=CEILING(-3.2,1)", .near (-3) 1e-6⟩,
  ⟨.plain, c!"=FLOOR(-3.2,1)", .near (-4) 1e-6⟩,
  ⟨.plain, c!"=MOD(10,3)", .near (1) 1e-6⟩,
  ⟨.plain, c!"=MOD(11,4)", .near (3) 1e-6⟩,
  ⟨.plain, c!"=MOD(20,6)", .near (2) 1e-6⟩,
  ⟨.plain, c!"=MOD(25,7)", .near (4) 1e-6⟩,
  ⟨.plain, c!"=MOD(100,9)", .near (1) 1e-6⟩,
  ⟨.plain, c!"=SUM(2,2,3,4,5,5,5,8,9)", .near (43) 1e-6⟩,
  ⟨.plain, c!"=SUM(10,10,10,12,14,14,16,18,18,18)", .near (140) 1e-6⟩,
  ⟨.plain, c!"=AVERAGE(2,2,3,4,5,5,5,8,9)", .near (2388889 / 500000) 1e-6⟩,
  ⟨.plain, c!"=AVERAGE(10,10,10,12,14,14,16,18,18,18)", .near (14) 1e-6⟩,
  ⟨.plain, c!"=MEDIAN(2,2,3,4,5,5,5,8,9)", .near (5) 1e-6⟩,
  ⟨.plain, c!"=MEDIAN(10,10,10,12,14,14,16,18,18,18)", .near (14) 1e-6⟩,
  ⟨.plain, c!"=MODE_SNGL(2,2,3,4,5,5,5,8,9)", .near (5) 1e-6⟩,
  ⟨.plain, c!"=MODE_SNGL(10,10,10,12,14,14,16,18,18,18)", .near (10) 1e-6⟩,
  ⟨.plain, c!"=STDEV_P(2,2,3,4,5,5,5,8,9)", .near (459737 / 200000) (1 / 1000)⟩,
  ⟨.plain, c!"=VAR_P(2,2,3,4,5,5,5,8,9)", .near (5283951 / 1000000) (1 / 1000)⟩,
  ⟨.plain, c!"=PERCENTILE_INC(2,2,3,4,5,5,5,8,9,0.1)", .near (2) 1e-6⟩,
  ⟨.plain, c!"=PERCENTILE_INC(2,2,3,4,5,5,5,8,9,0.25)", .near (3) 1e-6⟩,
  ⟨.plain, c!"=PERCENTILE_INC(2,2,3,4,5,5,5,8,9,0.5)", .near (5) 1e-6⟩,
  ⟨.plain, c!"=QUARTILE_INC(2,2,3,4,5,5,5,8,9,0)", .near (2) 1e-6⟩,
  ⟨.plain, c!"=QUARTILE_INC(2,2,3,4,5,5,5,8,9,1)", .near (3) 1e-6⟩,
  ⟨.plain, c!"=QUARTILE_INC(2,2,3,4,5,5,5,8,9,2)", .near (5) 1e-6⟩,
  ⟨.plain, c!"=QUARTILE_INC(2,2,3,4,5,5,5,8,9,4)", .near (9) 1e-6⟩,
  ⟨.plain, c!"=IF(AND(55000>50000,6>=5), 55000*0.1, 55000*0.05)", .near (5500) 1e-6⟩,
  ⟨.plain, c!"=IF(AND(45000>50000,3>=5), 45000*0.1, 45000*0.05)", .near (2250) 1e-6⟩,
  ⟨.plain, c!"=IF(AND(70000>50000,10>=5), 70000*0.1, 70000*0.05)", .near (7000) 1e-6⟩,
  ⟨.plain, c!"=IFS(1200>=1000,1200*0.8,1200>=500,1200*0.9,TRUE,1200)", .near (960) 1e-6⟩,
  ⟨.plain, c!"=IFS(800>=1000,800*0.8,800>=500,800*0.9,TRUE,800)", .near (720) 1e-6⟩,
  ⟨.plain, c!"=IFS(400>=1000,400*0.8,400>=500,400*0.9,TRUE,400)", .near (400) 1e-6⟩,
  ⟨.plain, c!"=IF(0.5<=1,5,IF(0.5<=5,10,20))", .near (5) 1e-6⟩,
  ⟨.plain, c!"=IF(2.5<=1,5,IF(2.5<=5,10,20))", .near (10) 1e-6⟩,
  ⟨.plain, c!"=IF(10.0<=1,5,IF(10.0<=5,10,20))", .near (20) 1e-6⟩,
  ⟨.plain, c!"=ROUND(IF(15000<=30000,15000*0.1,IF(15000<=70000,15000*0.2,15000*0.3)),2)", .near (1500) 1e-6⟩,
  ⟨.plain, c!"=ROUND(IF(45000<=30000,45000*0.1,IF(45000<=70000,45000*0.2,45000*0.3)),2)", .near (9000) 1e-6⟩,
  ⟨.plain, c!"=ROUND(IF(75000<=30000,75000*0.1,IF(75000<=70000,75000*0.2,75000*0.3)),2)", .near (22500) 1e-6⟩,
  ⟨.plain, c!"=IF(XOR(750>=700,20<=20),\"Eligible\",\"Review\")", .is (.str c!"Review")⟩,
  ⟨.plain, c!"=IF(XOR(800>=700,50<=20),\"Eligible\",\"Review\")", .is (.str c!"Eligible")⟩,
  ⟨.plain, c!"=IF(XOR(650>=700,15<=20),\"Eligible\",\"Review\")", .is (.str c!"Eligible")⟩,
  ⟨.plain, c!"=ROUND(IF(19.99>=50,19.99*0.9,19.99),2)", .near (1999 / 100) 1e-6⟩,
  ⟨.plain, c!"=ROUND(IF(75.25>=50,75.25*0.9,75.25),2)", .near (6773 / 100) 1e-6⟩,
  ⟨.plain, c!"=ROUND(IF(100.0>=50,100.0*0.9,100.0),2)", .near (90) 1e-6⟩,
  ⟨.plain, c!"=CEILING(15/60,1)", .near (1) 1e-6⟩,
  ⟨.plain, c!"=CEILING(61/60,1)", .near (2) 1e-6⟩,
  ⟨.plain, c!"=CEILING(125/60,1)", .near (3) 1e-6⟩,
  ⟨.plain, c!"=ROUND(94*5*IF(5>=5,0.95,1),2)", .near (893 / 2) 1e-6⟩,
  ⟨.plain, c!"=ROUND(95*6*IF(6>=5,0.95,1),2)", .near (1083 / 2) 1e-6⟩,
  ⟨.plain, c!"=ROUND(97*1*IF(1>=5,0.95,1),2)", .near (97) 1e-6⟩]

/-- `/repo/tests/safe_navigation.rs`. -/
def safeNavigation : List Case := [
  ⟨.program [], c!":json_obj := {\"name\": \"John\", \"age\": 30}; :json_obj&.name", .is (.str c!"John")⟩,
  ⟨.program [], c!":json_obj := {\"name\": \"John\", \"age\": 30}; :json_obj&.missing_property", .is .null⟩,
  ⟨.program [], c!":null_value := NULL; :null_value&.anything", .is .null⟩,
  ⟨.program [], c!":json_obj := {\"user\": {\"profile\": {\"name\": \"Jane\"}}}; :json_obj&.user&.profile&.name", .is (.str c!"Jane")⟩,
  ⟨.program [], c!":json_obj := {\"user\": {\"profile\": {\"name\": \"Jane\"}}}; :json_obj&.user&.missing&.name", .is .null⟩,
  ⟨.program [], c!":json_obj := {\"name\": \"John\"}; :json_obj.missing_property", .fails⟩,
  ⟨.program [], c!":data := {\n        \"response\": {\n            \"items\": {\n                \"first\": {\n                    \"metadata\": \"success\"\n                }\n            }\n        }\n    }; :data&.response&.items&.first&.metadata", .is (.str c!"success")⟩,
  ⟨.program [], c!":json_obj := {\"user\": {\"name\": \"Alice\"}}; :json_obj.user&.name", .is (.str c!"Alice")⟩]

/-- `/repo/tests/strings.rs`. -/
def strings : List Case := [
  ⟨.plain, c!"\"Hello\" ", .is (.str c!"Hello")⟩,
  ⟨.plain, c!"CONCAT(\"Hello, \", \"World\")", .is (.str c!"Hello, World")⟩,
  ⟨.plain, c!"UPPER(\"abc\")", .is (.str c!"ABC")⟩,
  ⟨.plain, c!"LOWER(\"AbC\")", .is (.str c!"abc")⟩,
  ⟨.plain, c!"TRIM(\"  hi  \")", .is (.str c!"hi")⟩,
  ⟨.plain, c!"LENGTH(\"hé\")", .is (.num (F64.round (2)))⟩,
  ⟨.plain, c!"SPLIT('a,b,c', ',')", .is (.arr [(.str c!"a"), (.str c!"b"), (.str c!"c")])⟩,
  ⟨.plain, c!"SUBSTITUTE('foo bar foo', 'foo', 'baz')", .is (.str c!"baz bar baz")⟩,
  ⟨.plain, c!"SUBSTITUTEM('a-a-a', '-', '_')", .is (.str c!"a_a_a")⟩,
  ⟨.plain, c!"REPLACE('abcdef', 3, 2, 'XY')", .is (.str c!"abXYef")⟩,
  ⟨.plain, c!"REPLACE('abc', 1, 0, 'X')", .is (.str c!"Xabc")⟩,
  ⟨.plain, c!"REPLACE('hello', 4, 10, 'X')", .is (.str c!"helX")⟩,
  ⟨.plain, c!"LEFT('Hello', 2)", .is (.str c!"He")⟩,
  ⟨.plain, c!"LEFT('Hello')", .is (.str c!"H")⟩,
  ⟨.plain, c!"RIGHT('Hello', 3)", .is (.str c!"llo")⟩,
  ⟨.plain, c!"RIGHT('Hello')", .is (.str c!"o")⟩,
  ⟨.plain, c!"MID('Hello', 2, 3)", .is (.str c!"ell")⟩,
  ⟨.plain, c!"MID('Hello', 2)", .is (.str c!"ello")⟩,
  ⟨.plain, c!"\"  john  \\t\".trim().upper() ", .is (.str c!"JOHN")⟩,
  ⟨.plain, c!"\"abc\".reverse() ", .is (.str c!"cba")⟩,
  ⟨.vars [(c!"name", (.str c!"Jane"))], c!"CONCAT(\"Hello, \", :name)", .is (.str c!"Hello, Jane")⟩]

/-- `/repo/tests/financial_functions.rs`. -/
def financialFunctions : List Case := [
  ⟨.plain, c!"=PMT(0.05/12, 30*12, 100000)", .near (-26841 / 50) 1⟩,
  ⟨.plain, c!"=PMT(0.04/12, 5*12, 50000, 10000)", .near (-53583 / 50) 1⟩,
  ⟨.plain, c!"=PMT(0.05/12, 30*12, 100000, 0, 1)", .near (-53459 / 100) 1⟩,
  ⟨.plain, c!"=PMT(0, 12, 12000)", .near (-1000) 1⟩,
  ⟨.plain, c!"=PMT(0.06/12, 10*12, 0, 50000)", .near (-3051 / 10) 1⟩,
  ⟨.plain, c!"=PMT(0.035/12, 5*12, 25000)", .near (-45479 / 100) 1⟩,
  ⟨.plain, c!"=PMT(0.08/12, 2*12, 5000)", .near (-11307 / 50) 1⟩,
  ⟨.plain, c!"=PMT(0.05, 12)", .fails⟩,
  ⟨.plain, c!"=PMT(0.05, 12, 1000, 0, 0, 0)", .fails⟩,
  ⟨.plain, c!"=PMT(0.05, 0, 1000)", .fails⟩,
  ⟨.plain, c!"=PMT(0.05, -12, 1000)", .fails⟩,
  ⟨.plain, c!"=PMT(\"invalid\", 12, 1000)", .fails⟩,
  ⟨.plain, c!"=PMT(0.07/12, 7*12, 75000)", .near (-22639 / 20) 1⟩,
  ⟨.plain, c!"=PMT(0.045/12, 10*12, 40000)", .near (-8291 / 20) 1⟩,
  ⟨.vars [(c!"principal", (.num (F64.round (100000)))), (c!"annual_rate", (.num (F64.round (1 / 20)))), (c!"years", (.num (F64.round (30))))], c!"=PMT(:annual_rate/12, :years*12, :principal)", .near (-26841 / 50) 1⟩,
  ⟨.json c!"{\n        \"principal\": 50000,\n        \"annual_rate\": 0.04,\n        \"years\": 5\n    }", c!"=PMT(:annual_rate/12, :years*12, :principal)", .near (-92083 / 100) 1⟩,
  ⟨.plain, c!"=DB(10000, 1000, 5, 1)", .near (3690) 1⟩,
  ⟨.plain, c!"=DB(10000, 1000, 5, 1, 6)", .near (1845) 1⟩,
  ⟨.plain, c!"=FV(0.05, 10, -1000)", .near (1257789 / 100) 1⟩,
  ⟨.plain, c!"=FV(0.06/12, 12, -100, -5000)", .near (6542) 1⟩,
  ⟨.plain, c!"=FV(0.05/12, 12, -100, 0, 1)", .near (1233) 1⟩,
  ⟨.plain, c!"=FV(0, 12, -100)", .near (1200) 1⟩,
  ⟨.plain, c!"=IPMT(0.05/12, 1, 360, 100000)", .near (41667 / 100) 1⟩,
  ⟨.plain, c!"=IPMT(0.05/12, 1, 360, 100000, 0, 1)", .near (0) 1⟩,
  ⟨.plain, c!"=IPMT(0, 1, 12, 12000)", .near (0) 1⟩,
  ⟨.plain, c!"=DB(10000, 1000, 5)", .fails⟩,
  ⟨.plain, c!"=DB(-1000, 1000, 5, 1)", .fails⟩,
  ⟨.plain, c!"=DB(10000, 1000, 0, 1)", .fails⟩,
  ⟨.plain, c!"=FV(0.05, 10)", .fails⟩,
  ⟨.plain, c!"=FV(0.05, -10, 1000)", .fails⟩,
  ⟨.plain, c!"=IPMT(0.05, 1, 12)", .fails⟩,
  ⟨.plain, c!"=IPMT(0.05, 0, 12, 1000)", .fails⟩,
  ⟨.plain, c!"=IPMT(0.05, 13, 12, 1000)", .fails⟩,
  ⟨.plain, c!"=IPMT(0.05, 1, 0, 1000)", .fails⟩]

/-- `/repo/tests/datetime_functions.rs`. -/
def datetimeFunctions : List Case := [
  ⟨.plain, c!"=SUBSTRING(\"Hello World\", 0, 5)", .is (.str c!"Hello")⟩,
  ⟨.plain, c!"=SUBSTRING(\"Hello World\", 6)", .is (.str c!"World")⟩,
  ⟨.plain, c!"=SUBSTRING(\"Hello 🌍\", 6, 2)", .is (.str c!"🌍")⟩,
  ⟨.plain, c!"=SUBSTRING(\"Hello\", 10, 5)", .is (.str c!"")⟩,
  ⟨.plain, c!"=SUBSTRING(\"Hello\", 0, 0)", .is (.str c!"")⟩,
  ⟨.plain, c!"=ISNUMBER(42)", .is (.bool true)⟩,
  ⟨.plain, c!"=ISNUMBER(3.14)", .is (.bool true)⟩,
  ⟨.plain, c!"=ISNUMBER(\"hello\")", .is (.bool false)⟩,
  ⟨.plain, c!"=ISNUMBER(TRUE)", .is (.bool false)⟩,
  ⟨.plain, c!"=ISNUMBER(NULL)", .is (.bool false)⟩,
  ⟨.plain, c!"=ISTEXT(\"hello\")", .is (.bool true)⟩,
  ⟨.plain, c!"=ISTEXT(\"\")", .is (.bool true)⟩,
  ⟨.plain, c!"=ISTEXT(42)", .is (.bool false)⟩,
  ⟨.plain, c!"=ISTEXT(TRUE)", .is (.bool false)⟩,
  ⟨.plain, c!"=ISTEXT(NULL)", .is (.bool false)⟩]

/-- The assertions of `/repo/tests` that are not written in one of the usual forms; most are about the clock. -/
def others : List Case := [
  ⟨.program [], c!":sum_group_1 := SUM([1,2,3,4,5,6])/LENGTH([1,2,3,4,5,6]); :sum_group_2 := SUM([23,4,5,6,7,8])/LENGTH([23,4,5,6,7,8]); (:sum_group_1 + :sum_group_2) * 100 / 50", .near (74 / 3) 1e-9⟩,
  ⟨.program [], c!"\n        :cuentas := [{\"FechaCierreCuenta\": null}, {\"FechaCierreCuenta\": \"\"}, {\"FechaCierreCuenta\": \"2023-01-01\"}]; \n        :cuentas.filter(:x.FechaCierreCuenta.to_s().length() == 0)\n    ", .items 2⟩,
  ⟨.program [], c!":obj := {\"a\": {\"arr\": [ {\"v\": \"ok\"} ] }}; \n        :obj.dig(['a','arr',0,'v'])", .is (.str c!"ok")⟩,
  ⟨.program [], c!":obj := {a: 1, b: 2}", .is (.json c!"{\"a\":1.0,\"b\":2.0}")⟩,
  ⟨.program [], c!":obj := {attrs: {a: [1,2,3,4]}}", .is (.json c!"{\"attrs\":{\"a\":[1.0,2.0,3.0,4.0]}}")⟩,
  ⟨.program [], c!":obj := {\"attrs\": {\"a\": [1,2,3,4]}}", .is (.json c!"{\"attrs\":{\"a\":[1.0,2.0,3.0,4.0]}}")⟩,
  ⟨.program [], c!":table := [{a: 1, b: 2, c: 3}, {a: 2, b: 3, c: 5}]", .is (.arr [.json c!"{\"a\":1.0,\"b\":2.0,\"c\":3.0}", .json c!"{\"a\":2.0,\"b\":3.0,\"c\":5.0}"])⟩,
  ⟨.program [(c!"x", .num (F64.round 10)), (c!"y", .num (F64.round 20))], c!":obj := {sum: :x + :y, product: :x * :y}", .is (.json c!"{\"product\":200.0,\"sum\":30.0}")⟩,
  ⟨.program [], c!":obj := {}", .is (.json c!"{}")⟩,
  ⟨.program [], c!":obj := {name: \"test\", value: 42}; :obj.name", .is (.str c!"test")⟩,
  ⟨.program [], c!":json_obj := {\"name\": \"John\"}; :json_obj&.missing_property", .is .null⟩,
  ⟨.program [], c!":cuentas := [{\"FechaCierreCuenta\": null}, {\"FechaCierreCuenta\": \"\"}]; :cuentas.filter(:x&.FechaCierreCuenta&.length() == 0)", .is (.arr [.json c!"{\"FechaCierreCuenta\":\"\"}"])⟩,
  ⟨.plain, c!"=PMT(0.005416666666666667, 360, 240000)", .near (-1516.96) 1⟩,
  ⟨.plain, c!"=DB(10000, 1000, 5, 1)", .between 0 10000⟩,
  ⟨.plain, c!"=DB(10000, 1000, 5, 2)", .between 0 10000⟩,
  ⟨.plain, c!"=DB(10000, 1000, 5, 3)", .between 0 10000⟩,
  ⟨.plain, c!"=IPMT(0.05/12, 180, 360, 100000)", .between (-100) 0⟩,
  ⟨.plain, c!"=IPMT(0.04/12, 1, 60, 50000, 10000)", .between 0 50000⟩,
  ⟨.plain, c!"=NOW()", .time⟩,
  ⟨.plain, c!"=DATE()", .time⟩,
  ⟨.plain, c!"=TIME()", .between (-1) 86400⟩,
  ⟨.plain, c!"=YEAR(NOW())", .near 2025 0⟩,
  ⟨.plain, c!"=MONTH(NOW())", .near 6 0⟩,
  ⟨.plain, c!"=DAY(NOW())", .near 15 0⟩,
  ⟨.plain, c!"=DATEADD(NOW(), 7, \"days\")", .time⟩,
  ⟨.plain, c!"=DATEADD(NOW(), 24, \"hours\")", .time⟩,
  ⟨.plain, c!"=DATEDIFF(NOW(), DATEADD(NOW(), 7, \"days\"), \"days\")", .near 7 0⟩,
  ⟨.plain, c!"=DATEDIFF(NOW(), DATEADD(NOW(), 24, \"hours\"), \"hours\")", .near 24 0⟩,
  ⟨.plain, c!"=DATEDIFF(DATEADD(NOW(), 7, \"days\"), NOW(), \"days\")", .near (-7) 0⟩,
  ⟨.plain, c!"=DATEDIFF(DATEADD(NOW(), -365, \"days\"), NOW(), \"years\")", .near 1 0⟩,
  ⟨.plain, c!"=YEAR(DATEADD(NOW(), 1, \"years\"))", .near 2026 0⟩,
  ⟨.plain, c!"=CONCAT(\"Year: \", YEAR(NOW()))", .is (.str c!"Year: 2025")⟩,
  ⟨.plain, c!"2 + 3 * 4", .near 14 1e-9⟩,
  ⟨.plain, c!"(2 + 3) * 4", .near 20 1e-9⟩,
  ⟨.plain, c!"2 ^ 3", .near 8 1e-9⟩,
  ⟨.plain, c!"2 ^ 3 ^ 2", .near 512 1e-9⟩,
  ⟨.plain, c!"-3 ^ 2", .near (-9) 1e-9⟩,
  ⟨.plain, c!"(-3) ^ 2", .near 9 1e-9⟩,
  ⟨.plain, c!"= 10 + 20 * 3", .near 70 1e-9⟩,
  ⟨.plain, c!"= (10 + 20) * 3", .near 90 1e-9⟩]

/-- The functions of `/repo/tests/custom_functions.rs`. -/
def double : CustomFn := ⟨c!"DOUBLE", 1, some 1, fun args => match args with
  | .num x :: _ => .ok (.num (F64.mul x (F64.round 2)))
  | _ => fail "DOUBLE expects a number"⟩
@[inherit_doc double]
def prefixed : CustomFn := ⟨c!"PREFIX", 2, some 2, fun args => match args with
  | .str s :: .str t :: _ => .ok (.str (s ++ t))
  | .str _ :: _ => fail "PREFIX expects string as second argument"
  | _ => fail "PREFIX expects string as first argument"⟩
@[inherit_doc double]
def product : CustomFn := ⟨c!"SUM", 2, some 2, fun args => match args with
  | .num x :: .num y :: _ => .ok (.num (F64.mul x y))
  | _ => fail "Expected number"⟩

/-- `evaluate_with_custom` after `register_function`. -/
def withFunction (f : CustomFn) (text : Str) (l : List (Str × Value)) : Res Value := do
  let r ← Registry.register world Registry.empty f
  Lib.evaluateWithCustom world r text (envOf l)

/-- `/repo/tests/custom_functions.rs`. -/
def customFunctions : List (Want × Res Value) := [
  (.is (.num (F64.round 10)), withFunction double c!"DOUBLE(5)" []),
  (.is (.num (F64.round 15)), withFunction double c!"DOUBLE(:x)" [(c!"x", .num (F64.round 7.5))]),
  (.is (.num (F64.round 12)), withFunction product c!"SUM(3, 4)" []),
  (.is (.str c!"Hello, World!"), withFunction prefixed c!"PREFIX(\"Hello, \", \"World!\")" []),
  (.fails, withFunction double c!"DOUBLE(\"hello\")" []),
  (.fails, withFunction double c!"DOUBLE(1, 2)" [])]

/-- `/repo/tests/http_server_jsonpath.rs`: the expression, the arguments as JSON and the number asserted. -/
def httpServerJsonpath : List (Str × Str × Rat) := [
  (c!"SUM(JQ(:arguments, \"$.accounts[*].amount\"))", c!"{\"accounts\":[{\"id\":1,\"amount\":300.1},{\"id\":4,\"amount\":890.1}]}", 1190.2),
  (c!"AVG(JQ(:arguments, \"$.scores[*].value\"))", c!"{\"scores\":[{\"value\":85},{\"value\":92},{\"value\":78},{\"value\":95}]}", 87.5),
  (c!"MAX(JQ(:arguments, \"$.temperatures[*].reading\"))", c!"{\"temperatures\":[{\"reading\":22.5},{\"reading\":31.2},{\"reading\":18.7},{\"reading\":29.8}]}", 31.2),
  (c!"MIN(JQ(:arguments, \"$.prices[*].cost\"))", c!"{\"prices\":[{\"cost\":15.99},{\"cost\":8.50},{\"cost\":23.75},{\"cost\":12.30}]}", 8.5),
  (c!"SUM(JQ(:arguments, \"$.departments[*].employees[*].salary\"))", c!"{\"departments\":[{\"name\":\"Sales\",\"employees\":[{\"salary\":50000},{\"salary\":55000}]},{\"name\":\"Engineering\",\"employees\":[{\"salary\":75000},{\"salary\":80000},{\"salary\":70000}]}]}", 330000),
  (c!"SUM(JQ(:arguments, \"$.products[?(@.category == 'electronics')].price\"))", c!"{\"products\":[{\"name\":\"A\",\"price\":10,\"category\":\"electronics\"},{\"name\":\"B\",\"price\":20,\"category\":\"books\"},{\"name\":\"C\",\"price\":30,\"category\":\"electronics\"},{\"name\":\"D\",\"price\":15,\"category\":\"books\"}]}", 40),
  (c!"SUM(JQ(:arguments, \"$.sales[*].amount\")) + :bonus", c!"{\"bonus\":50,\"sales\":[{\"amount\":100},{\"amount\":200}]}", 350),
  (c!"SUM(JQ(:arguments, \"$.invalid[*].path\"))", c!"{\"data\":{\"valid\":\"data\"}}", 0)]

/-- What a run of `sk` prints, if it prints a value plainly, and its exit status. -/
def sk (words : List Str) : Option Str × Nat :=
  let o := Cli.run world Registry.empty words
  (match o with
    | .printed v false => some (Ext.dbg world v)
    | _ => none, o.status)

/-- `/repo/tests/cli_integration.rs`: the words, what is printed and whether the exit status is 0. -/
def cli : List (List Str × Option Str × Bool) := [
  ([c!"=2 + 3 * 4"], some c!"Number(14.0)", true),
  ([c!"=SUM(:sales, 1000)", c!"sales=5000"], some c!"Number(6000.0)", true),
  ([c!"=:price * :quantity", c!"price=19.99", c!"quantity=3"], some c!"Number(59.97)", true),
  ([c!"=:name.upper()", c!"name=\"hello\""], some c!"String(\"HELLO\")", true),
  ([c!"=IF(:active, \"YES\", \"NO\")", c!"active=true"], some c!"String(\"YES\")", true),
  ([c!"=:numbers.length()", c!"numbers=[1,2,3,4,5]"], some c!"Number(5.0)", true),
  ([c!"=:value.nil?", c!"value=null"], some c!"Boolean(true)", true),
  ([c!"=UNKNOWN_FUNCTION()"], none, false),
  ([c!"=:x", c!"invalid_format"], none, false),
  ([], none, false),
  ([c!"=SUM(JQ(:arguments, \"$.accounts[*].amount\"))", c!"--json", c!"{\"accounts\": [{\"id\": 1, \"amount\": 300.1}, {\"id\": 4, \"amount\": 890.1}]}"], some c!"Number(1190.2)", true),
  ([c!"=AVG(JQ(:arguments, \"$.scores[*].value\"))", c!"--json", c!"{\"scores\": [{\"value\": 85}, {\"value\": 92}, {\"value\": 78}, {\"value\": 95}]}"], some c!"Number(87.5)", true),
  ([c!"=MAX(JQ(:arguments, \"$.temperatures[*].reading\"))", c!"--json", c!"{\"temperatures\": [{\"reading\": 22.5}, {\"reading\": 31.2}, {\"reading\": 18.7}, {\"reading\": 29.8}]}"], some c!"Number(31.2)", true),
  ([c!"=MIN(JQ(:arguments, \"$.prices[*].cost\"))", c!"--json", c!"{\"prices\": [{\"cost\": 15.99}, {\"cost\": 8.50}, {\"cost\": 23.75}, {\"cost\": 12.30}]}"], some c!"Number(8.5)", true),
  ([c!"=SUM(JQ(:arguments, \"$.departments[*].employees[*].salary\"))", c!"--json", c!"{\"departments\": [{\"name\": \"Sales\", \"employees\": [{\"salary\": 50000}, {\"salary\": 55000}]}, {\"name\": \"Engineering\", \"employees\": [{\"salary\": 75000}, {\"salary\": 80000}, {\"salary\": 70000}]}]}"], some c!"Number(330000.0)", true),
  ([c!"=SUM(JQ(:arguments, \"$.products[?(@.category == 'electronics')].price\"))", c!"--json", c!"{\"products\": [{\"name\": \"A\", \"price\": 10, \"category\": \"electronics\"}, {\"name\": \"B\", \"price\": 20, \"category\": \"books\"}, {\"name\": \"C\", \"price\": 30, \"category\": \"electronics\"}, {\"name\": \"D\", \"price\": 15, \"category\": \"books\"}]}"], some c!"Number(40.0)", true),
  ([c!"=SUM(JQ(:arguments, \"$.sales[*].amount\")) + :bonus", c!"--json", c!"{\"sales\": [{\"amount\": 100}, {\"amount\": 200}], \"bonus\": 50}"], some c!"Number(350.0)", true)]

/-- Whether a run is as a test asserts. -/
def runs (t : List Str × Option Str × Bool) : Bool :=
  let r := sk t.1
  decide (r.1 = t.2.1) && decide (decide (r.2 = 0) = t.2.2)

/-! ### The model passes them -/

theorem arithmetic_pass : arithmetic.all passes = true := by kernel_rfl
theorem arrays_pass : arrays.all passes = true := by kernel_rfl
theorem assignments_pass : assignments.all passes = true := by kernel_rfl
theorem conversionMethods_pass : conversionMethods.all passes = true := by kernel_rfl
theorem nulls_pass : nulls.all passes = true := by kernel_rfl
theorem includesFunction_pass : includesFunction.all passes = true := by kernel_rfl
theorem jsonDig_pass : jsonDig.all passes = true := by kernel_rfl
theorem jsonpath_pass : jsonpath.all passes = true := by kernel_rfl
theorem prdCases_pass : prdCases.all passes = true := by kernel_rfl
theorem prdComprehensive_pass : prdComprehensive.all passes = true := by kernel_rfl
theorem safeNavigation_pass : safeNavigation.all passes = true := by kernel_rfl
theorem strings_pass : strings.all passes = true := by kernel_rfl
theorem financialFunctions_pass : financialFunctions.all passes = true := by kernel_rfl
theorem datetimeFunctions_pass : datetimeFunctions.all passes = true := by kernel_rfl
theorem others_pass : others.all passes = true := by kernel_rfl
theorem customFunctions_pass : (customFunctions.all fun c => meets c.1 c.2) = true := by kernel_rfl
theorem httpServerJsonpath_pass : (httpServerJsonpath.all fun c => meets (.near c.2.2 1e-9) (Lib.evaluateWithJsonCustom world Registry.empty c.1 c.2.1)) = true := by kernel_rfl
theorem cli_pass : cli.all runs = true := by kernel_rfl

end RepoTests
