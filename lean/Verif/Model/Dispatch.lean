import Verif.Model.Logical
import Verif.Model.Array
import Verif.Model.StringFns
import Verif.Model.JsonFns
import Verif.Model.Statistical
import Verif.Model.Financial
import Verif.Model.DateTime
/-! The two builtin dispatchers: the table of `src/runtime/function_dispatch.rs` used by the unified
evaluator, and the chain of `src/runtime/builtin_functions.rs` used by the older one. -/

namespace Dispatch

/-- Models `src/runtime/function_dispatch.rs:21-38`. -/
def arithmeticNames : List Str :=
  [c!"SUM", c!"AVG", c!"AVERAGE", c!"MIN", c!"MAX", c!"ROUND", c!"CEIL", c!"CEILING", c!"FLOOR", c!"ABS",
   c!"SQRT", c!"POW", c!"POWER", c!"MOD", c!"INT", c!"PRODUCT", c!"MULTIPLY"]
/-- Models `src/runtime/function_dispatch.rs:40-46`: `BETWEEN` and the internal constants are absent. -/
def logicalNames : List Str := [c!"AND", c!"OR", c!"NOT", c!"XOR", c!"IF", c!"IFS"]
/-- Models `src/runtime/function_dispatch.rs:48-66`: `REVERSE` is absent. -/
def stringNames : List Str :=
  [c!"LENGTH", c!"CONCAT", c!"UPPER", c!"LOWER", c!"TRIM", c!"SUBSTRING", c!"SPLIT", c!"REPLACE",
   c!"SUBSTITUTE", c!"SUBSTITUTEM", c!"ISBLANK", c!"ISNUMBER", c!"ISTEXT", c!"INCLUDES", c!"LEFT",
   c!"RIGHT", c!"MID"]
/-- Models `src/runtime/function_dispatch.rs:68-79`. -/
def arrayNames : List Str :=
  [c!"ARRAY", c!"FLATTEN", c!"FIRST", c!"LAST", c!"CONTAINS", c!"IN", c!"COUNT", c!"UNIQUE", c!"SORT",
   c!"REVERSE", c!"JOIN"]
/-- Models `src/runtime/function_dispatch.rs:81-89`. -/
def datetimeNames : List Str :=
  [c!"NOW", c!"DATE", c!"TIME", c!"YEAR", c!"MONTH", c!"DAY", c!"DATEADD", c!"DATEDIFF"]
/-- Models `src/runtime/function_dispatch.rs:91-95`. -/
def financialNames : List Str := [c!"PMT", c!"DB", c!"FV", c!"IPMT"]
/-- Models `src/runtime/function_dispatch.rs:97-113`. -/
def statisticalNames : List Str :=
  [c!"MEDIAN", c!"MODE.SNGL", c!"MODESNGL", c!"MODE_SNGL", c!"STDEV.P", c!"STDEVP", c!"STDEV_P", c!"VAR.P",
   c!"VARP", c!"VAR_P", c!"PERCENTILE.INC", c!"PERCENTILEINC", c!"PERCENTILE_INC", c!"QUARTILE.INC",
   c!"QUARTILEINC", c!"QUARTILE_INC"]
/-- Models `src/runtime/function_dispatch.rs:115-116`. -/
def jsonNames : List Str := [c!"DIG"]

/-- Models `src/runtime/function_dispatch.rs:171-180` (`has_function`), reached as `has_builtin_function`. -/
def hasFunction (name : Str) : Bool :=
  name ∈ arithmeticNames || name ∈ logicalNames || name ∈ stringNames || name ∈ arrayNames || name ∈ datetimeNames ||
  name ∈ financialNames || name ∈ statisticalNames || name ∈ jsonNames

/-- Models `src/runtime/function_dispatch.rs:183-192` (`count`), reached as `builtin_function_count`. `HashSet::len` counts different
members. -/
def functionCount : Nat :=
  arithmeticNames.eraseDups.length + logicalNames.eraseDups.length + stringNames.eraseDups.length + arrayNames.eraseDups.length +
  datetimeNames.eraseDups.length + financialNames.eraseDups.length + statisticalNames.eraseDups.length + jsonNames.eraseDups.length

end Dispatch

open Dispatch in
/-- Models `src/runtime/function_dispatch.rs:131-167` (`execute`), reached as `exec_builtin_fast`. -/
def execFast (X : Ext) (name : Str) (args : List Value) : Res Value :=
  if name ∈ arrayNames then execArray X name args
  else if name ∈ arithmeticNames then execArithmetic X name args
  else if name ∈ logicalNames then execLogical name args
  else if name ∈ stringNames then execString X name args
  else if name ∈ datetimeNames then execDatetime X name args
  else if name ∈ financialNames then execFinancial X name args
  else if name ∈ statisticalNames then execStatistical X name args
  else if name ∈ jsonNames then execJson X name args
  else fail "Unknown function: {}" [name]

/-- `if let Ok(result) = r { return Ok(result) }`: keep a success, go on after an error. A panic is
not caught. -/
def orElse (r : Res Value) (next : Res Value) : Res Value :=
  match r with
  | .ok v => .ok v
  | .error (.panic w) => .error (.panic w)
  | .error (.err ..) => next

/-- Models `src/runtime/builtin_functions.rs:11-53` (`exec_builtin`). -/
def execBuiltin (X : Ext) (name : Str) (args : List Value) : Res Value :=
  orElse (execArithmetic X name args) <|
  orElse (execLogical name args) <|
  orElse (execString X name args) <|
  orElse (execArray X name args) <|
  if isDatetimeFunction name then execDatetime X name args else
  orElse (execFinancial X name args) <|
  orElse (execStatistical X name args) <|
  fail "Unknown function: {}" [name]
