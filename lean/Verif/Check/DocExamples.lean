import Verif.Check.RepoTests
/-! The model run on the examples of the repository's documentation that show an expression and its result, as `sk` would be given them. Like
`Check/RepoTests.lean` these are tests of the model. The examples that the program does not follow are listed apart; C36, C37, C134 and C135 are about them.
Left out are examples of functions that are not part of the program and of variables that the example does not give. -/

namespace DocExamples
open RepoTests

/-- The value or the failure of a run of `sk`. -/
def result (words : List Str) : Res Value :=
  match Cli.run world Registry.empty words with
  | .printed v _ => .ok v
  | .failed f => .error f
  | .refused => fail "refused"
  | .panicked => panics "panicked"

/-- Whether a run gives what the example says. -/
def asSaid (e : List Str × Want) : Bool := meets e.2 (result e.1)

/-- `/repo/API_REFERENCE.md:63-279`. -/
def reference1 : List (List Str × Want) := [
  ([c!"SUM(1, 2, 3, 4, 5)"], .near (15) 1e-9),
  ([c!"SUM([1, 2, 3], [4, 5])"], .near (15) 1e-9),
  ([c!"SUM(...[1, 2, 3])"], .near (6) 1e-9),
  ([c!"PRODUCT(1, 2, 3, 4)"], .near (24) 1e-9),
  ([c!"MULTIPLY(2, 3, 4)"], .near (24) 1e-9),
  ([c!"PRODUCT([2, 3, 4])"], .near (24) 1e-9),
  ([c!"AVERAGE(1, 2, 3, 4, 5)"], .near (3) 1e-9),
  ([c!"AVG(10, 20, 30)"], .near (20) 1e-9),
  ([c!"MAX(1, 5, 3, 9, 2)"], .near (9) 1e-9),
  ([c!"MIN([1, 5, 3, 9, 2])"], .near (1) 1e-9),
  ([c!"COUNT([1, 2, 3, 4, 5])"], .near (5) 1e-9),
  ([c!"ABS(-5)"], .near (5) 1e-9),
  ([c!"ABS(3.14)"], .near (157 / 50) 1e-9),
  ([c!"ROUND(3.14159)"], .near (3) 1e-9),
  ([c!"ROUND(3.14159, 2)"], .near (157 / 50) 1e-9),
  ([c!"ROUND(3.14159, 4)"], .near (3927 / 1250) 1e-9),
  ([c!"CEILING(3.2)"], .near (4) 1e-9),
  ([c!"FLOOR(3.8)"], .near (3) 1e-9),
  ([c!"INT(3.9)"], .near (3) 1e-9),
  ([c!"MOD(10, 3)"], .near (1) 1e-9),
  ([c!"MOD(17, 5)"], .near (2) 1e-9),
  ([c!"POWER(2, 8)"], .near (256) 1e-9),
  ([c!"POW(3, 4)"], .near (81) 1e-9),
  ([c!"SQRT(16)"], .near (4) 1e-9),
  ([c!"SQRT(2)"], .near (707 / 500) 1e-3),
  ([c!"MEDIAN(1, 2, 3, 4, 5)"], .near (3) 1e-9),
  ([c!"MEDIAN(1, 2, 3, 4)"], .near (5 / 2) 1e-9),
  ([c!"MODE_SNGL(1, 2, 2, 3, 4, 4, 4)"], .near (4) 1e-9),
  ([c!"PERCENTILE_INC([1,2,3,4,5], 0.5)"], .near (3) 1e-9),
  ([c!"PERCENTILE_INC([1,2,3,4,5], 0.25)"], .near (2) 1e-9),
  ([c!"QUARTILE_INC([1,2,3,4,5,6,7,8], 1)"], .near (11 / 4) 1e-9),
  ([c!"QUARTILE_INC([1,2,3,4,5,6,7,8], 2)"], .near (9 / 2) 1e-9),
  ([c!"IF(5 > 3, \"Yes\", \"No\")"], .is (.str c!"Yes")),
  ([c!"IF(false, 10, 20)"], .near (20) 1e-9),
  ([c!"IFS(false, \"A\", true, \"B\", true, \"C\")"], .is (.str c!"B")),
  ([c!"AND(true, true, false)"], .is (.bool false)),
  ([c!"OR(false, false, true)"], .is (.bool true)),
  ([c!"NOT(true)"], .is (.bool false)),
  ([c!"NOT(false)"], .is (.bool true)),
  ([c!"XOR(true, false)"], .is (.bool true)),
  ([c!"XOR(true, true)"], .is (.bool false)),
  ([c!"LENGTH(\"Hello World\")"], .near (11) 1e-9),
  ([c!"CONCAT(\"Hello\", \" \", \"World\")"], .is (.str c!"Hello World")),
  ([c!"CONCAT(\"Value: \", 42)"], .is (.str c!"Value: 42")),
  ([c!"SUBSTRING(\"Hello World\", 6, 5)"], .is (.str c!"World")),
  ([c!"SUBSTRING(\"Hello\", 1, 3)"], .is (.str c!"ell")),
  ([c!"LEFT(\"Hello\", 2)"], .is (.str c!"He")),
  ([c!"RIGHT(\"Hello\", 3)"], .is (.str c!"llo")),
  ([c!"LEFT(\"Hello\")"], .is (.str c!"H")),
  ([c!"MID(\"Hello\", 2, 3)"], .is (.str c!"ell")),
  ([c!"MID(\"Hello\", 3)"], .is (.str c!"llo")),
  ([c!"SUBSTITUTE(\"foo bar foo\", \"foo\", \"baz\")"], .is (.str c!"baz bar baz")),
  ([c!"SUBSTITUTE(\"a-a-a\", \"-\", \"_\")"], .is (.str c!"a_a_a")),
  ([c!"SUBSTITUTEM(\"a-a-a\", \"-\", \"_\")"], .is (.str c!"a_a_a")),
  ([c!"REPLACE(\"abcdef\", 3, 2, \"XY\")"], .is (.str c!"abXYef")),
  ([c!"REPLACE(\"abc\", 1, 0, \"X\")"], .is (.str c!"Xabc")),
  ([c!"REPLACE(\"hello\", 4, 10, \"X\")"], .is (.str c!"helX")),
  ([c!"ISNUMBER(42)"], .is (.bool true)),
  ([c!"ISTEXT(\"hello\")"], .is (.bool true)),
  ([c!"ISNUMBER(\"hello\")"], .is (.bool false))]

/-- `/repo/API_REFERENCE.md:306-619`. -/
def reference2 : List (List Str × Want) := [
  ([c!"MONTH(DATE(2023, 6, 15))"], .near (6) 1e-9),
  ([c!"DAY(DATE(2023, 6, 15))"], .near (15) 1e-9),
  ([c!"DATEDIFF(NOW(), DATEADD(NOW(), 7, \"days\"), \"days\")"], .near (7) 1e-9),
  ([c!"FILTER([1,2,3,4,5], :x > 3)"], .is (.arr [.num (F64.round (4)), .num (F64.round (5))])),
  ([c!"MAP([1,2,3], :x * 2)"], .is (.arr [.num (F64.round (2)), .num (F64.round (4)), .num (F64.round (6))])),
  ([c!"FIND([1,2,3,4,5], :x > 3)"], .near (4) 1e-9),
  ([c!"REDUCE([1,2,3,4], :acc + :x, 0)"], .near (10) 1e-9),
  ([c!"SUMIF([1, -2, 3, -4], :x > 0)"], .near (4) 1e-9),
  ([c!"SUMIF([10, 20, 30, 40], \">25\")"], .near (70) 1e-9),
  ([c!"SUMIF([10, 20, 30, 40], \"=20\")"], .near (20) 1e-9),
  ([c!"SUMIF([10, 20, 30, 40], \"<>20\")"], .near (80) 1e-9),
  ([c!"SUMIF([10, 20, 30, 40], \">=20\")"], .near (90) 1e-9),
  ([c!"SUMIF([10, 20, 30, 40], \"<=20\")"], .near (30) 1e-9),
  ([c!"SUMIF([10, 30, 50], \">20\", [1, 2, 3])"], .near (5) 1e-9),
  ([c!"AVGIF([1, 3, 5, -1], :x > 0)"], .near (3) 1e-9),
  ([c!"COUNTIF([1,2,3,4], :x % 2 == 0)"], .near (2) 1e-9),
  ([c!"FLATTEN([1,[2,[3]],4])"], .is (.arr [.num (F64.round (1)), .num (F64.round (2)), .num (F64.round (3)), .num (F64.round (4))])),
  ([c!"UNIQUE([1,2,2,3,3,3])"], .is (.arr [.num (F64.round (1)), .num (F64.round (2)), .num (F64.round (3))])),
  ([c!"\"hello\".upper()"], .is (.str c!"HELLO")),
  ([c!"\"WORLD\".lower()"], .is (.str c!"world")),
  ([c!"\"  spaces  \".trim()"], .is (.str c!"spaces")),
  ([c!"\"hello\".reverse()"], .is (.str c!"olleh")),
  ([c!"\"hello world\".includes(\"world\")"], .is (.bool true)),
  ([c!"\"hello\".includes(\"xyz\")"], .is (.bool false)),
  ([c!"\"hello\".length()"], .near (5) 1e-9),
  ([c!"[1,2,3,4,5].length()"], .near (5) 1e-9),
  ([c!"[].count()"], .near (0) 1e-9),
  ([c!"[1,2,3,4,5].first()"], .near (1) 1e-9),
  ([c!"[1,2,3,4,5].last()"], .near (5) 1e-9),
  ([c!"[1,2,3].reverse()"], .is (.arr [.num (F64.round (3)), .num (F64.round (2)), .num (F64.round (1))])),
  ([c!"[1,2,2,3].unique()"], .is (.arr [.num (F64.round (1)), .num (F64.round (2)), .num (F64.round (3))])),
  ([c!"[3,1,2].sort()"], .is (.arr [.num (F64.round (1)), .num (F64.round (2)), .num (F64.round (3))])),
  ([c!"[3,1,2].sort(\"DESC\")"], .is (.arr [.num (F64.round (3)), .num (F64.round (2)), .num (F64.round (1))])),
  ([c!"[1,2,3,4,5].sum()"], .near (15) 1e-9),
  ([c!"[1,2,3,4,5].avg()"], .near (3) 1e-9),
  ([c!"[5,1,9].min()"], .near (1) 1e-9),
  ([c!"[5,1,9].max()"], .near (9) 1e-9),
  ([c!"[1,2,3].join(\"-\")"], .is (.str c!"1-2-3")),
  ([c!"[\"a\",\"b\",\"c\"].join()"], .is (.str c!"a,b,c")),
  ([c!"[1,2,3].contains(2)"], .is (.bool true)),
  ([c!"[1,2,3].includes(4)"], .is (.bool false)),
  ([c!"[1,[2,[3]],4].flatten()"], .is (.arr [.num (F64.round (1)), .num (F64.round (2)), .num (F64.round (3)), .num (F64.round (4))])),
  ([c!"[1, null, 2, null].compact()"], .is (.arr [.num (F64.round (1)), .num (F64.round (2))])),
  ([c!"[1,2,3,4,5].filter(:x > 3)"], .is (.arr [.num (F64.round (4)), .num (F64.round (5))])),
  ([c!"[1,2,3].map(:x * 2)"], .is (.arr [.num (F64.round (2)), .num (F64.round (4)), .num (F64.round (6))])),
  ([c!"[1,2,3,4,5].find(:x > 3)"], .near (4) 1e-9),
  ([c!"[1,2,3,4].reduce(:acc + :x, 0)"], .near (10) 1e-9),
  ([c!"(-5).abs()"], .near (5) 1e-9),
  ([c!"(3.2).ceil()"], .near (4) 1e-9),
  ([c!"(3.8).floor()"], .near (3) 1e-9),
  ([c!"(3.14159).round()"], .near (3) 1e-9),
  ([c!"(3.14159).round(2)"], .near (157 / 50) 1e-9),
  ([c!"(16).sqrt()"], .near (4) 1e-9),
  ([c!"(3.9).int()"], .near (3) 1e-9),
  ([c!"(42).positive?"], .is (.bool true)),
  ([c!"(-5).negative?"], .is (.bool true)),
  ([c!"(0).zero?"], .is (.bool true)),
  ([c!"(4).even?"], .is (.bool true)),
  ([c!"(5).odd?"], .is (.bool true)),
  ([c!"(\"\").blank?"], .is (.bool true))]

/-- `/repo/API_REFERENCE.md:620-807`. -/
def reference3 : List (List Str × Want) := [
  ([c!"(\"hello\").present?"], .is (.bool true)),
  ([c!"([]).blank?"], .is (.bool true)),
  ([c!"([1,2,3]).present?"], .is (.bool true)),
  ([c!"(null).nil?"], .is (.bool true)),
  ([c!"(15).between(10, 20)"], .is (.bool true)),
  ([c!"{\"name\": \"John\"}.has_key(\"name\")"], .is (.bool true)),
  ([c!"{\"name\": \"John\"}.has(\"age\")"], .is (.bool false)),
  ([c!"{\"user\": {\"posts\": [{\"title\": \"First\"}]}}.dig(['user','posts',0,'title'])"], .is (.str c!"First")),
  ([c!"{\"a\": {\"b\": 1}}.dig(['a','x'], 'fallback')"], .is (.str c!"fallback")),
  ([c!"null.to_s()"], .is (.str c!"")),
  ([c!"null.to_i()"], .near (0) 1e-9),
  ([c!"null.to_f()"], .near (0) 1e-9),
  ([c!"null.to_a()"], .is (.arr [])),
  ([c!"null.to_bool()"], .is (.bool false)),
  ([c!"\"123\".to_i()"], .near (123) 1e-9),
  ([c!"\"123.45\".to_f()"], .near (2469 / 20) 1e-9),
  ([c!"\"abc\".to_i()"], .near (0) 1e-9),
  ([c!"\"hello\".to_a()"], .is (.arr [.str c!"h", .str c!"e", .str c!"l", .str c!"l", .str c!"o"])),
  ([c!"\"hello\".to_bool()"], .is (.bool true)),
  ([c!"\"\".to_bool()"], .is (.bool false)),
  ([c!"123.to_s()"], .is (.str c!"123")),
  ([c!"123.45.to_i()"], .near (123) 1e-9),
  ([c!"42.to_a()"], .is (.arr [.num (F64.round (42))])),
  ([c!"0.to_bool()"], .is (.bool false)),
  ([c!"123.to_bool()"], .is (.bool true)),
  ([c!"true.to_s()"], .is (.str c!"true")),
  ([c!"true.to_i()"], .near (1) 1e-9),
  ([c!"false.to_i()"], .near (0) 1e-9),
  ([c!"true.to_a()"], .is (.arr [.bool true])),
  ([c!"[1,2,3].to_s()"], .is (.str c!"[1, 2, 3]")),
  ([c!"[1,2,3].to_i()"], .near (3) 1e-9),
  ([c!"[].to_i()"], .near (0) 1e-9),
  ([c!"[].to_bool()"], .is (.bool false)),
  ([c!"[1,2].to_bool()"], .is (.bool true)),
  ([c!"\"42\" :: Integer"], .near (42) 1e-9),
  ([c!"42 :: String"], .is (.str c!"42")),
  ([c!"1 :: Boolean"], .is (.bool true)),
  ([c!"0 :: Boolean"], .is (.bool false))]

/-- `/repo/DOCUMENTATION.md:770-919`. -/
def guide1 : List (List Str × Want) := [
  ([c!"=2 + 3 * 4"], .near (14) 1e-9),
  ([c!"=(10 + 20) / 3"], .near (10) 1e-9),
  ([c!"=2 ^ 3"], .near (8) 1e-9),
  ([c!"=10 % 3"], .near (1) 1e-9),
  ([c!"=:price * (1 + :tax)", c!"price=100", c!"tax=0.08"], .near (108) 1e-9),
  ([c!"=SUM(1, 2, 3, 4, 5)"], .near (15) 1e-9),
  ([c!"=AVERAGE(10, 20, 30, 40, 50)"], .near (30) 1e-9),
  ([c!"=MAX(15, 8, 23, 4, 16)"], .near (23) 1e-9),
  ([c!"=MIN(15, 8, 23, 4, 16)"], .near (4) 1e-9),
  ([c!"=MEDIAN(1, 2, 3, 4, 5)"], .near (3) 1e-9),
  ([c!"=MODE_SNGL(1, 2, 2, 3, 4, 4, 4)"], .near (4) 1e-9),
  ([c!"=PERCENTILE_INC([1,2,3,4,5], 0.5)"], .near (3) 1e-9),
  ([c!"=QUARTILE_INC([1,2,3,4,5,6,7,8], 1)"], .near (11 / 4) 1e-9),
  ([c!"=IF(5 > 3, \"Yes\", \"No\")"], .is (.str c!"Yes")),
  ([c!"=AND(true, false)"], .is (.bool false)),
  ([c!"=OR(true, false)"], .is (.bool true)),
  ([c!"=NOT(false)"], .is (.bool true)),
  ([c!"=XOR(true, false)"], .is (.bool true)),
  ([c!"=IFS(false, \"A\", true, \"B\", true, \"C\")"], .is (.str c!"B")),
  ([c!"=\"Hello\".upper()"], .is (.str c!"HELLO")),
  ([c!"=\"WORLD\".lower()"], .is (.str c!"world")),
  ([c!"=\"  spaces  \".trim()"], .is (.str c!"spaces")),
  ([c!"=\"hello\".reverse()"], .is (.str c!"olleh")),
  ([c!"=SUBSTRING(\"Hello World\", 6, 5)"], .is (.str c!"World")),
  ([c!"=LENGTH(\"Hello\")"], .near (5) 1e-9),
  ([c!"=CONCAT(\"Hello\", \" \", \"World\")"], .is (.str c!"Hello World")),
  ([c!"=LEFT(\"Hello\", 2)"], .is (.str c!"He")),
  ([c!"=RIGHT(\"Hello\", 3)"], .is (.str c!"llo")),
  ([c!"=MID(\"Hello\", 2, 3)"], .is (.str c!"ell")),
  ([c!"=YEAR(DATE(2023, 6, 15))"], .near (2023) 1e-9),
  ([c!"=[1, 2, 3][0]"], .near (1) 1e-9),
  ([c!"=[1, 2, 3, 4, 5][1:3]"], .is (.arr [.num (F64.round (2)), .num (F64.round (3))])),
  ([c!"=[1, 2, 3, 4, 5].length()"], .near (5) 1e-9),
  ([c!"=[5, 2, 8, 1, 9].sort()"], .is (.arr [.num (F64.round (1)), .num (F64.round (2)), .num (F64.round (5)), .num (F64.round (8)), .num (F64.round (9))])),
  ([c!"=[1, 2, 2, 3, 3, 3].unique()"], .is (.arr [.num (F64.round (1)), .num (F64.round (2)), .num (F64.round (3))])),
  ([c!"=[1, 2, 3, 4, 5].sum()"], .near (15) 1e-9),
  ([c!"=[10, 5, 8, 3, 7].max()"], .near (10) 1e-9),
  ([c!"=[10, 5, 8, 3, 7].min()"], .near (3) 1e-9),
  ([c!"=[1, 2, 3, 4, 5].filter(:x > 3)"], .is (.arr [.num (F64.round (4)), .num (F64.round (5))])),
  ([c!"=[1, 2, 3].map(:x * 2)"], .is (.arr [.num (F64.round (2)), .num (F64.round (4)), .num (F64.round (6))])),
  ([c!"=[1, 2, 3, 4].reduce(:acc + :x, 0)"], .near (10) 1e-9),
  ([c!"=[[1, 2], [3, 4], [5]].flatten()"], .is (.arr [.num (F64.round (1)), .num (F64.round (2)), .num (F64.round (3)), .num (F64.round (4)), .num (F64.round (5))])),
  ([c!"=FIND([1, 2, 3, 4, 5], :x > 3)"], .near (4) 1e-9),
  ([c!"=[1, 2, 3, 4, 5].find(:x > 3)"], .near (4) 1e-9),
  ([c!"=(17).between(10, 20)"], .is (.bool true)),
  ([c!"=ABS(-5)"], .near (5) 1e-9),
  ([c!"=ROUND(3.14159, 2)"], .near (157 / 50) 1e-9),
  ([c!"=CEILING(3.2)"], .near (4) 1e-9),
  ([c!"=FLOOR(3.8)"], .near (3) 1e-9),
  ([c!"=INT(3.9)"], .near (3) 1e-9),
  ([c!"=MOD(10, 3)"], .near (1) 1e-9),
  ([c!"=POWER(2, 8)"], .near (256) 1e-9),
  ([c!"=SQRT(16)"], .near (4) 1e-9),
  ([c!"=(-5).abs()"], .near (5) 1e-9),
  ([c!"=(3.14159).round(2)"], .near (157 / 50) 1e-9),
  ([c!"=(3.8).floor()"], .near (3) 1e-9),
  ([c!"=ISNUMBER(42)"], .is (.bool true)),
  ([c!"=ISTEXT(\"hello\")"], .is (.bool true)),
  ([c!"=ISNUMBER(\"hello\")"], .is (.bool false)),
  ([c!"=(5).positive?"], .is (.bool true))]

/-- `/repo/DOCUMENTATION.md:920-1525`. -/
def guide2 : List (List Str × Want) := [
  ([c!"=(-3).negative?"], .is (.bool true)),
  ([c!"=(4).even?"], .is (.bool true)),
  ([c!"=(5).odd?"], .is (.bool true)),
  ([c!"=(\"\").blank?"], .is (.bool true)),
  ([c!"=(\"hello\").present?"], .is (.bool true)),
  ([c!"=:principal * :rate * :time", c!"principal=1000", c!"rate=0.05", c!"time=2"], .near (100) 1e-9),
  ([c!"=:price * (1 - :discount)", c!"price=100", c!"discount=0.20"], .near (80) 1e-9),
  ([c!"null.to_s()"], .is (.str c!"")),
  ([c!"null.to_i()"], .near (0) 1e-9),
  ([c!"null.to_f()"], .near (0) 1e-9),
  ([c!"null.to_a()"], .is (.arr [])),
  ([c!"null.to_bool()"], .is (.bool false)),
  ([c!"\"123\".to_i()"], .near (123) 1e-9),
  ([c!"\"123.45\".to_f()"], .near (2469 / 20) 1e-9),
  ([c!"\"abc\".to_i()"], .near (0) 1e-9),
  ([c!"\"hello\".to_a()"], .is (.arr [.str c!"h", .str c!"e", .str c!"l", .str c!"l", .str c!"o"])),
  ([c!"\"hello\".to_bool()"], .is (.bool true)),
  ([c!"\"\".to_bool()"], .is (.bool false)),
  ([c!"\"hello\".to_s()"], .is (.str c!"hello")),
  ([c!"123.to_s()"], .is (.str c!"123")),
  ([c!"123.45.to_s()"], .is (.str c!"123.45")),
  ([c!"123.45.to_i()"], .near (123) 1e-9),
  ([c!"123.45.to_f()"], .near (2469 / 20) 1e-9),
  ([c!"42.to_a()"], .is (.arr [.num (F64.round (42))])),
  ([c!"0.to_bool()"], .is (.bool false)),
  ([c!"123.to_bool()"], .is (.bool true)),
  ([c!"true.to_s()"], .is (.str c!"true")),
  ([c!"false.to_s()"], .is (.str c!"false")),
  ([c!"true.to_i()"], .near (1) 1e-9),
  ([c!"false.to_i()"], .near (0) 1e-9),
  ([c!"true.to_f()"], .near (1) 1e-9),
  ([c!"false.to_f()"], .near (0) 1e-9),
  ([c!"true.to_a()"], .is (.arr [.bool true])),
  ([c!"true.to_bool()"], .is (.bool true)),
  ([c!"[1, 2, 3].to_s()"], .is (.str c!"[1, 2, 3]")),
  ([c!"[1, 2, 3].to_i()"], .near (3) 1e-9),
  ([c!"[].to_i()"], .near (0) 1e-9),
  ([c!"[1, 2, 3].to_f()"], .near (3) 1e-9),
  ([c!"[1, 2, 3].to_a()"], .is (.arr [.num (F64.round (1)), .num (F64.round (2)), .num (F64.round (3))])),
  ([c!"[].to_bool()"], .is (.bool false)),
  ([c!"[1, 2, 3].to_bool()"], .is (.bool true)),
  ([c!":data.FechaCierreCuenta.length()"], .fails),
  ([c!"\"hello\".to_a().length()"], .near (5) 1e-9),
  ([c!":value := 42; :value.to_a().sum()"], .near (42) 1e-9),
  ([c!"null.to_s().length()"], .near (0) 1e-9),
  ([c!"\"123.45\".to_f().round(1).to_s()"], .is (.str c!"123.5")),
  ([c!"\"hello\".to_a().length().to_bool()"], .is (.bool true)),
  ([c!":obj := {\"name\": \"John\"}; :obj&.name"], .is (.str c!"John")),
  ([c!":obj := {\"name\": \"John\"}; :obj&.missing"], .is .null),
  ([c!":null_obj := null; :null_obj&.anything"], .is .null),
  ([c!":null_obj := null; :null_obj.anything"], .fails),
  ([c!":str := \"hello\"; :str&.length()"], .near (5) 1e-9),
  ([c!":null_str := null; :null_str&.length()"], .is .null),
  ([c!":obj := {\"name\": \"John\"}; :obj&.name&.length()"], .near (4) 1e-9),
  ([c!":obj := {\"name\": null}; :obj&.name&.length()"], .is .null),
  ([c!"=\"  hello world  \".trim().upper().reverse()"], .is (.str c!"DLROW OLLEH")),
  ([c!"=[5, 2, 8, 2, 1, 9, 2].unique().sort().reverse()"], .is (.arr [.num (F64.round (9)), .num (F64.round (8)), .num (F64.round (5)), .num (F64.round (2)), .num (F64.round (1))])),
  ([c!"=(75).between(60, 100)"], .is (.bool true)),
  ([c!"=SUM(...[1, 2, 3, 4, 5])"], .near (15) 1e-9),
  ([c!"=MAX(...:scores)", c!"scores=[85,92,78,90]"], .near (92) 1e-9)]

/-- `/repo/README.md:48-101`. -/
def readme : List (List Str × Want) := [
  ([c!"SUM(1, 2, 3, 4, 5)"], .near (15) 1e-9),
  ([c!"IF(10 > 5, \"Yes\", \"No\")"], .is (.str c!"Yes")),
  ([c!"AVERAGE([85, 92, 78, 90])"], .near (345 / 4) 1e-9),
  ([c!"null.to_s().length()"], .near (0) 1e-9),
  ([c!"\"123\".to_i() + 10"], .near (133) 1e-9),
  ([c!"[null, \"hello\"].map(:x.to_s())"], .is (.arr [.str c!"", .str c!"hello"])),
  ([c!":data := {\"name\": null}; :data&.name&.length()"], .is .null),
  ([c!"SUBSTITUTE('foo bar foo', 'foo', 'baz')"], .is (.str c!"baz bar baz")),
  ([c!"SUBSTITUTEM('a-a-a', '-', '_')"], .is (.str c!"a_a_a")),
  ([c!"REPLACE('abcdef', 3, 2, 'XY')"], .is (.str c!"abXYef")),
  ([c!":obj := {\"user\": {\"posts\": [{\"title\": \"First\"}]}}; DIG(:obj, ['user','posts',0,'title'])"], .is (.str c!"First")),
  ([c!":obj := {\"user\": {\"name\": \"Jane\"}}; :obj.dig(['user','name'])"], .is (.str c!"Jane")),
  ([c!"SUM(JQ(:arguments, \"$.accounts[*].amount\"))", c!"--json", c!"{\"accounts\":[{\"amount\":100},{\"amount\":200}]}"], .near (300) 1e-9),
  ([c!"AVG(JQ(:arguments, \"$.scores[*].value\"))", c!"--json", c!"{\"scores\":[{\"value\":85},{\"value\":92},{\"value\":78}]}"], .near (85) 1e-9),
  ([c!"SUM(JQ(:arguments, \"$.products[?(@.category == 'electronics')].price\"))", c!"--json", c!"{\"products\":[{\"category\":\"electronics\",\"price\":100},{\"category\":\"books\",\"price\":50}]}"], .near (100) 1e-9),
  ([c!"SUM(JQ(:arguments, \"$.sales[*].amount\")) + :bonus", c!"--json", c!"{\"sales\":[{\"amount\":100},{\"amount\":200}],\"bonus\":50}"], .near (350) 1e-9),
  ([c!"[30,60,80,100].filter(:x > 50).map(:x * 0.9).sum()"], .near (216) 1e-9)]

/-- Examples of `/repo/API_REFERENCE.md` and `/repo/DOCUMENTATION.md` whose result is another one. -/
def departures : List (List Str × Want) := [
  ([c!"COUNT(1, \"hello\", 3, 4)"], .near (3) 1e-9),
  ([c!"INT(-3.9)"], .near (-3) 1e-9),
  ([c!"LEN(\"Hello\")"], .near (5) 1e-9),
  ([c!"TIME(14, 30, 0)"], .near (52200) 1e-9),
  ([c!"BETWEEN(10, 20, 15)"], .is (.bool true)),
  ([c!"BETWEEN(1, 10, 15)"], .is (.bool false)),
  ([c!"COMPACT([1, null, 2, null])"], .is (.arr [.num (F64.round (1)), .num (F64.round (2))])),
  ([c!"{\"name\": \"John\", \"age\": 30}.keys()"], .is (.arr [.str c!"name", .str c!"age"])),
  ([c!"{\"name\": \"John\", \"age\": 30}.values()"], .is (.arr [.str c!"John", .num (F64.round (30))])),
  ([c!"null.to_json()"], .is (.str c!"{}")),
  ([c!"\"hello\" :: Array"], .is (.arr [.str c!"h", .str c!"e", .str c!"l", .str c!"l", .str c!"o"])),
  ([c!"=COUNT(1, 2, 3, \"text\", 4)"], .near (4) 1e-9),
  ([c!"=CONCAT(:name.upper(), ' ', :age)", c!"name=alice", c!"age=25"], .is (.str c!"ALICE (25)")),
  ([c!"=BETWEEN(10, 20, 15)"], .is (.bool true)),
  ([c!"=PI()"], .near (314159 / 100000) 1e-5),
  ([c!"null.to_json()"], .is (.str c!"{}")),
  ([c!"=:data.filter(x > 0).map(x * 2).sum()", c!"data=[1,-2,3,-4,5]"], .near (18) 1e-9),
  ([c!"=(42).positive()"], .is (.bool true)),
  ([c!"=(-5).negative()"], .is (.bool true)),
  ([c!"=(0).zero()"], .is (.bool true)),
  ([c!"=(4).even()"], .is (.bool true)),
  ([c!"=(5).odd()"], .is (.bool true)),
  ([c!"=(\"\").blank()"], .is (.bool true)),
  ([c!"=(\"hello\").present()"], .is (.bool true)),
  ([c!"=([]).blank()"], .is (.bool true)),
  ([c!"=([1,2,3]).present()"], .is (.bool true)),
  ([c!"=\"42\" as number"], .near (42) 1e-9),
  ([c!"=42 as string"], .is (.str c!"42")),
  ([c!"=1 as boolean"], .is (.bool true)),
  ([c!"=0 as boolean"], .is (.bool false)),
  ([c!"=[0, ...[1, 2, 3], 4]"], .is (.arr [.num (F64.round (0)), .num (F64.round (1)), .num (F64.round (2)), .num (F64.round (3)), .num (F64.round (4))]))]

theorem reference1_asSaid : reference1.all asSaid = true := by kernel_rfl
theorem reference2_asSaid : reference2.all asSaid = true := by kernel_rfl
theorem reference3_asSaid : reference3.all asSaid = true := by kernel_rfl
theorem guide1_asSaid : guide1.all asSaid = true := by kernel_rfl
theorem guide2_asSaid : guide2.all asSaid = true := by kernel_rfl
theorem readme_asSaid : readme.all asSaid = true := by kernel_rfl
theorem departures_not : (departures.any asSaid) = false := by kernel_rfl

end DocExamples
