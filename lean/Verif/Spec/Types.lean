import Verif.Model.Expr
/-! A type system for expressions, in terms of the syntax only. Nothing here refers to the evaluators. -/

namespace Types

/-- The types. -/
inductive Ty where
  | num | bool | text | money | date | arr (τ : Ty)
deriving DecidableEq, Repr

/-- What is left of a type when all array levels are removed. -/
def Ty.leaf : Ty → Ty
  | .arr τ => τ.leaf
  | τ => τ

/-- The first second of the year -262143, from which the calendar reaches, in seconds since 1970. -/
def firstSecond : Int := -8334601228800
/-- The last second of the year 262142, to which the calendar reaches. -/
def lastSecond : Int := 8210266876799

/-- The values of a type. Dates are those of the calendar: the datetimes beyond it are of no type. -/
def IsOf : Ty → Value → Prop
  | .num, .num _ => True
  | .bool, .bool _ => True
  | .text, .str _ => True
  | .money, .cur _ => True
  | .date, .dt t => firstSecond ≤ t ∧ t ≤ lastSecond
  | .arr τ, .arr vs => ∀ v ∈ vs, IsOf τ v
  | _, _ => False

/-- The types of variables. -/
abbrev Cx := Str → Option Ty

/-- One more variable. -/
def Cx.bind (Γ : Cx) (x : Str) (τ : Ty) : Cx := fun y => if y = x then some τ else Γ y

/-- The variables are there and have their types; there may be more. -/
def Models (env : Env) (Γ : Cx) : Prop := ∀ x τ, Γ x = some τ → ∃ v, env x = some v ∧ IsOf τ v

/-- Functions of a fixed number of arguments: name, types of the arguments, type of the result. -/
inductive Sig : Str → List Ty → Ty → Prop where
  | number1 {n} : n ∈ [c!"ROUND", c!"CEIL", c!"CEILING", c!"FLOOR", c!"ABS", c!"SQRT", c!"INT"] → Sig n [.num] .num
  | number2 {n} : n ∈ [c!"ROUND", c!"CEILING", c!"POW", c!"POWER", c!"MOD"] → Sig n [.num, .num] .num
  | not {σ} : Sig c!"NOT" [σ] .bool
  | xor {σ τ} : Sig c!"XOR" [σ, τ] .bool
  | cond {σ τ} : Sig c!"IF" [σ, τ, τ] τ
  | text1 {n} : n ∈ [c!"UPPER", c!"LOWER", c!"TRIM", c!"LEFT", c!"RIGHT"] → Sig n [.text] .text
  | textNum {n} : n ∈ [c!"LEFT", c!"RIGHT", c!"MID", c!"SUBSTRING"] → Sig n [.text, .num] .text
  | textNum2 {n} : n ∈ [c!"MID", c!"SUBSTRING"] → Sig n [.text, .num, .num] .text
  | replace : Sig c!"REPLACE" [.text, .num, .num, .text] .text
  | substitute {n} : n ∈ [c!"SUBSTITUTE", c!"SUBSTITUTEM"] → Sig n [.text, .text, .text] .text
  | includes : Sig c!"INCLUDES" [.text, .text] .bool
  | split1 : Sig c!"SPLIT" [.text] (.arr .text)
  | split2 : Sig c!"SPLIT" [.text, .text] (.arr .text)
  | lengthText : Sig c!"LENGTH" [.text] .num
  | lengthArr {n τ} : n ∈ [c!"LENGTH", c!"COUNT"] → Sig n [.arr τ] .num
  | test {n τ} : n ∈ [c!"ISBLANK", c!"ISNUMBER", c!"ISTEXT"] → Sig n [τ] .bool
  | array {ts τ} : (∀ t ∈ ts, t = τ) → Sig c!"ARRAY" ts (.arr τ)
  | flatten {ts τ} : (∀ t ∈ ts, t.leaf = τ) → Sig c!"FLATTEN" ts (.arr τ)
  | contains {n σ τ} : n ∈ [c!"CONTAINS", c!"IN"] → Sig n [.arr σ, τ] .bool
  | unique : Sig c!"UNIQUE" [.arr .num] (.arr .num)
  | reverse {τ} : Sig c!"REVERSE" [.arr τ] (.arr τ)
  | join1 {τ} : τ ∈ [Ty.num, .bool, .text] → Sig c!"JOIN" [.arr τ] .text
  | dateField {n} : n ∈ [c!"YEAR", c!"MONTH", c!"DAY"] → Sig n [.date] .num
  | join2 {τ} : τ ∈ [Ty.num, .bool, .text] → Sig c!"JOIN" [.arr τ, .text] .text

/-- Functions of any number of arguments of any types. -/
def many : List (Str × Ty) :=
  [(c!"SUM", .num), (c!"AVG", .num), (c!"AVERAGE", .num), (c!"MIN", .num), (c!"MAX", .num), (c!"PRODUCT", .num), (c!"MULTIPLY", .num),
   (c!"AND", .bool), (c!"OR", .bool), (c!"CONCAT", .text),
   (c!"VARP", .num), (c!"VAR_P", .num), (c!"STDEVP", .num), (c!"STDEV_P", .num), (c!"MODESNGL", .num), (c!"MODE_SNGL", .num)]

/-- Functions that can fail for some data. -/
inductive RangedSig : Str → List Ty → Ty → Prop where
  | sort1 : RangedSig c!"SORT" [.arr .num] (.arr .num)
  | sort2 : RangedSig c!"SORT" [.arr .num, .text] (.arr .num)
  | median {ts} : RangedSig c!"MEDIAN" ts .num
  | percentile {n σ} : n ∈ [c!"PERCENTILEINC", c!"PERCENTILE_INC", c!"QUARTILEINC", c!"QUARTILE_INC"] → RangedSig n [σ, .num] .num
  | loan3 {n} : n ∈ [c!"PMT", c!"FV"] → RangedSig n [.num, .num, .num] .num
  | loan4 {n} : n ∈ [c!"PMT", c!"FV", c!"DB", c!"IPMT"] → RangedSig n [.num, .num, .num, .num] .num
  | loan5 {n} : n ∈ [c!"PMT", c!"FV", c!"DB", c!"IPMT"] → RangedSig n [.num, .num, .num, .num, .num] .num
  | loan6 : RangedSig c!"IPMT" [.num, .num, .num, .num, .num, .num] .num
  | date : RangedSig c!"DATE" [.num, .num, .num] .date
  | dateadd : RangedSig c!"DATEADD" [.date, .num, .text] .date
  | datediff : RangedSig c!"DATEDIFF" [.date, .date, .text] .num

/-- Methods: type of the receiver, name, types of the arguments, type of the result. -/
inductive MethodSig : Ty → Str → List Ty → Ty → Prop where
  | toText {τ n} : n ∈ [c!"to_s", c!"to_string"] → MethodSig τ n [] .text
  | toNum {τ n} : n ∈ [c!"to_i", c!"to_int", c!"to_f", c!"to_float"] → MethodSig τ n [] .num
  | toBool {τ n} : n ∈ [c!"to_bool", c!"to_boolean"] → MethodSig τ n [] .bool
  | number {n} : n ∈ [c!"abs", c!"ceil", c!"ceiling", c!"floor", c!"round", c!"sin", c!"cos", c!"tan", c!"int"] → MethodSig .num n [] .num
  | round : MethodSig .num c!"round" [.num] .num
  | between : MethodSig .num c!"between" [.num, .num] .bool
  | textLength {n} : n ∈ [c!"length", c!"len"] → MethodSig .text n [] .num
  | text {n} : n ∈ [c!"upper", c!"upcase", c!"lower", c!"downcase", c!"trim", c!"reverse"] → MethodSig .text n [] .text
  | search {n} : n ∈ [c!"includes", c!"contains", c!"starts_with", c!"startswith", c!"ends_with", c!"endswith"] → MethodSig .text n [.text] .bool
  | split : MethodSig .text c!"split" [.text] (.arr .text)
  | replace : MethodSig .text c!"replace" [.text, .text] .text
  | substring1 {n} : n ∈ [c!"substring", c!"substr"] → MethodSig .text n [.num] .text
  | substring2 {n} : n ∈ [c!"substring", c!"substr"] → MethodSig .text n [.num, .num] .text
  | arrLength {τ n} : n ∈ [c!"length", c!"len", c!"count"] → MethodSig (.arr τ) n [] .num
  | arrSame {τ n} : n ∈ [c!"reverse", c!"unique", c!"compact"] → MethodSig (.arr τ) n [] (.arr τ)
  | arrTotal {n} : n ∈ [c!"sum", c!"avg", c!"average"] → MethodSig (.arr .num) n [] .num
  | arrFlatten {τ} : MethodSig (.arr τ) c!"flatten" [] (.arr τ.leaf)
  | arrContains {σ τ n} : n ∈ [c!"contains", c!"includes"] → MethodSig (.arr σ) n [τ] .bool
  | arrJoin1 {τ} : τ ∈ [Ty.num, .bool, .text] → MethodSig (.arr τ) c!"join" [] .text
  | arrJoin2 {τ} : τ ∈ [Ty.num, .bool, .text] → MethodSig (.arr τ) c!"join" [.text] .text

/-- The predicates (`:x.positive?`). -/
def predicates : List Str := [c!"positive", c!"negative", c!"zero", c!"even", c!"odd", c!"numeric", c!"array", c!"nil", c!"blank", c!"present"]

/-- Casts that always work. -/
inductive CastSig : Ty → CastTy → Ty → Prop where
  | string {σ} : CastSig σ .string .text
  | boolean {σ} : CastSig σ .boolean .bool
  | integer {σ} : σ ∈ [Ty.num, .bool, .text, .money] → CastSig σ .integer .num
  | float {σ} : σ ∈ [Ty.num, .bool, .money] → CastSig σ .float .num
  | currency {σ} : σ ∈ [Ty.num, .bool, .money] → CastSig σ .currency .money
  | dateTime : CastSig .date .dateTime .date
  | array {σ} : CastSig (.arr σ) .array (.arr σ)
  | wrap {σ} : σ ∈ [Ty.num, .bool, .text, .money, .date] → CastSig σ .array (.arr σ)

mutual
/-- `HasType total inner Γ e τ`: the expression `e` has type `τ` when variables have the types `Γ`. With `total`, operations that can fail for some data are not used
(indexing, FIRST and LAST, square root as a method, reading a number from a text, the functions of `RangedSig`). With `inner`, the expression stands inside the arguments of a method. -/
inductive HasType (total : Bool) : Bool → Cx → Expr → Ty → Prop where
  | number {m Γ} (n : F64) : HasType total m Γ (.number n) .num
  | text {m Γ} (s : Str) : HasType total m Γ (.strLit s) .text
  | true {m Γ} : HasType total m Γ (.call c!"__CONST_TRUE__" []) .bool
  | false {m Γ} : HasType total m Γ (.call c!"__CONST_FALSE__" []) .bool
  | var {m Γ x τ} : Γ x = some τ → HasType total m Γ (.var x) τ
  | sign {m Γ e op} : op ∈ [UnaryOp.plus, .minus] → HasType total m Γ e .num → HasType total m Γ (.unary op e) .num
  | not {m Γ e} : HasType total m Γ e .bool → HasType total m Γ (.unary .not e) .bool
  | arith {m Γ a b op} : op ∈ [BinaryOp.add, .sub, .mul, .div, .mod, .pow] → HasType total m Γ a .num → HasType total m Γ b .num → HasType total m Γ (.binary a op b) .num
  | order {m Γ a b op τ} : op ∈ [BinaryOp.lt, .le, .gt, .ge] → τ ∈ [Ty.num, .bool, .text] → HasType total m Γ a τ → HasType total m Γ b τ → HasType total m Γ (.binary a op b) .bool
  | equal {m Γ a b op σ τ} : op ∈ [BinaryOp.eq, .ne] → HasType total m Γ a σ → HasType total m Γ b τ → HasType total m Γ (.binary a op b) .bool
  | logic {m Γ a b op} : op ∈ [BinaryOp.and, .or] → HasType total m Γ a .bool → HasType total m Γ b .bool → HasType total m Γ (.binary a op b) .bool
  | ternary {m Γ c a b τ} : HasType total m Γ c .bool → HasType total m Γ a τ → HasType total m Γ b τ → HasType total m Γ (.call c!"__TERNARY__" [c, a, b]) τ
  | array {m Γ es τ} : HasAll total m Γ es τ → HasType total m Γ (.array es) (.arr τ)
  | cast {m Γ e σ ty τ} : CastSig σ ty τ → HasType total m Γ e σ → HasType total m Γ (.cast e ty) τ
  | sliceAll {m Γ e τ} : HasType total m Γ e (.arr τ) → HasType total m Γ (.slice e none none) (.arr τ)
  | sliceFrom {m Γ e a τ} : HasType total m Γ e (.arr τ) → HasType total m Γ a .num → HasType total m Γ (.slice e (some a) none) (.arr τ)
  | sliceTo {m Γ e b τ} : HasType total m Γ e (.arr τ) → HasType total m Γ b .num → HasType total m Γ (.slice e none (some b)) (.arr τ)
  | slice {m Γ e a b τ} : HasType total m Γ e (.arr τ) → HasType total m Γ a .num → HasType total m Γ b .num → HasType total m Γ (.slice e (some a) (some b)) (.arr τ)
  | call {m Γ n es ts τ} : Sig n ts τ → HasTypes total m Γ es ts → HasType total m Γ (.call n es) τ
  | callMany {m Γ n es τ} : (n, τ) ∈ many → HasMany total m Γ es → HasType total m Γ (.call n es) τ
  | filter {m Γ a f τ} : HasType total m Γ a (.arr τ) → HasType total m (Γ.bind c!"x" τ) f .bool → HasType total m Γ (.call c!"FILTER" [a, f]) (.arr τ)
  | filterNamed {m Γ a f p τ} : HasType total m Γ a (.arr τ) → HasType total m (Γ.bind p τ) f .bool → HasType total m Γ (.call c!"FILTER" [a, f, .strLit p]) (.arr τ)
  | map {m Γ a f σ τ} : HasType total m Γ a (.arr σ) → HasType total m (Γ.bind c!"x" σ) f τ → HasType total m Γ (.call c!"MAP" [a, f]) (.arr τ)
  | mapNamed {m Γ a f p σ τ} : HasType total m Γ a (.arr σ) → HasType total m (Γ.bind p σ) f τ → HasType total m Γ (.call c!"MAP" [a, f, .strLit p]) (.arr τ)
  | reduce {Γ a f i σ τ} : HasType total Bool.false Γ a (.arr σ) → HasType total Bool.false ((Γ.bind c!"x" σ).bind c!"acc" τ) f τ → HasType total Bool.false Γ i τ →
      HasType total Bool.false Γ (.call c!"REDUCE" [a, f, i]) τ
  | reduceNamed {m Γ a f i p q σ τ} : HasType total m Γ a (.arr σ) → HasType total m ((Γ.bind p σ).bind q τ) f τ → HasType total m Γ i τ →
      HasType total m Γ (.call c!"REDUCE" [a, f, i, .strLit p, .strLit q]) τ
  | countif {m Γ a f τ} : HasType total m Γ a (.arr τ) → HasType total m (Γ.bind c!"x" τ) f .bool → HasType total m Γ (.call c!"COUNTIF" [a, f]) .num
  | avgif {m Γ a f τ} : HasType total m Γ a (.arr τ) → HasType total m (Γ.bind c!"x" τ) f .bool → HasType total m Γ (.call c!"AVGIF" [a, f]) .num
  | predicate {m Γ e n es τ} : n ∈ predicates → HasType total m Γ e τ → HasType total m Γ (.method e n es Bool.true) .bool
  | method {m Γ e n es σ ts τ} : MethodSig σ n ts τ → HasType total m Γ e σ → HasTypes total Bool.true Γ es ts → HasType total m Γ (.method e n es Bool.false) τ
  | filterMethod {m Γ a f τ} : HasType total m Γ a (.arr τ) → HasType total Bool.true (Γ.bind c!"x" τ) f .bool → HasType total m Γ (.method a c!"filter" [f] Bool.false) (.arr τ)
  | filterMethodNamed {m Γ a f p τ} : HasType total m Γ a (.arr τ) → HasType total Bool.true (Γ.bind p τ) f .bool →
      HasType total m Γ (.method a c!"filter" [f, .strLit p] Bool.false) (.arr τ)
  | mapMethod {m Γ a f σ τ} : HasType total m Γ a (.arr σ) → HasType total Bool.true (Γ.bind c!"x" σ) f τ → HasType total m Γ (.method a c!"map" [f] Bool.false) (.arr τ)
  | mapMethodNamed {m Γ a f p σ τ} : HasType total m Γ a (.arr σ) → HasType total Bool.true (Γ.bind p σ) f τ → HasType total m Γ (.method a c!"map" [f, .strLit p] Bool.false) (.arr τ)
  | reduceMethod {m Γ a f i σ τ} : HasType total m Γ a (.arr σ) → HasType total Bool.true ((Γ.bind c!"x" σ).bind c!"acc" τ) f τ → HasType total Bool.true Γ i τ →
      HasType total m Γ (.method a c!"reduce" [f, i] Bool.false) τ
  | reduceMethodNamed {m Γ a f i p q σ τ} : HasType total m Γ a (.arr σ) → HasType total Bool.true ((Γ.bind p σ).bind q τ) f τ → HasType total Bool.true Γ i τ →
      HasType total m Γ (.method a c!"reduce" [f, i, .strLit p, .strLit q] Bool.false) τ
  | index {m Γ a i τ} : total = Bool.false → HasType total m Γ a (.arr τ) → HasType total m Γ i .num → HasType total m Γ (.index a i) τ
  | first {Γ a τ} : total = Bool.false → HasType total Bool.false Γ a (.arr τ) → HasType total Bool.false Γ (.call c!"FIRST" [a]) τ
  | last {Γ a τ} : total = Bool.false → HasType total Bool.false Γ a (.arr τ) → HasType total Bool.false Γ (.call c!"LAST" [a]) τ
  | sqrt {m Γ e} : total = Bool.false → HasType total m Γ e .num → HasType total m Γ (.method e c!"sqrt" [] Bool.false) .num
  | read {m Γ e} : total = Bool.false → HasType total m Γ e .text → HasType total m Γ (.cast e .float) .num
  | readMoney {m Γ e} : total = Bool.false → HasType total m Γ e .text → HasType total m Γ (.cast e .currency) .money
  | ranged {Γ n es ts τ} : total = Bool.false → RangedSig n ts τ → HasTypes total Bool.false Γ es ts → HasType total Bool.false Γ (.call n es) τ
/-- Expressions of these types. -/
inductive HasTypes (total : Bool) : Bool → Cx → List Expr → List Ty → Prop where
  | nil {m Γ} : HasTypes total m Γ [] []
  | cons {m Γ e es τ ts} : HasType total m Γ e τ → HasTypes total m Γ es ts → HasTypes total m Γ (e :: es) (τ :: ts)
/-- Expressions all of one type. -/
inductive HasAll (total : Bool) : Bool → Cx → List Expr → Ty → Prop where
  | nil {m Γ τ} : HasAll total m Γ [] τ
  | cons {m Γ e es τ} : HasType total m Γ e τ → HasAll total m Γ es τ → HasAll total m Γ (e :: es) τ
/-- Expressions of any types, and spread arrays. -/
inductive HasMany (total : Bool) : Bool → Cx → List Expr → Prop where
  | nil {m Γ} : HasMany total m Γ []
  | cons {m Γ e es τ} : HasType total m Γ e τ → HasMany total m Γ es → HasMany total m Γ (e :: es)
  | spread {m Γ e es τ} : HasType total m Γ e (.arr τ) → HasMany total m Γ es → HasMany total m Γ (.spread e :: es)
end

/-- Programs: the type of the result, and the types of the variables afterwards. -/
inductive Program (total : Bool) : Cx → Expr → Ty → Cx → Prop where
  | value {Γ e τ} : HasType total false Γ e τ → Program total Γ e τ Γ
  | assign {Γ x e τ} : HasType total false Γ e τ → Program total Γ (.assign x e) τ (Γ.bind x τ)
  | one {Γ e τ Δ} : Program total Γ e τ Δ → Program total Γ (.seq [e]) τ Δ
  | then_ {Γ e σ Δ d ds τ Θ} : Program total Γ e σ Δ → Program total Δ (.seq (d :: ds)) τ Θ → Program total Γ (.seq (e :: d :: ds)) τ Θ

/-- The failures that types cannot exclude. -/
inductive DataFailure : Fail → Prop where
  | outOfRange : DataFailure (.err "Index out of bounds" [] none)
  | noFirst : DataFailure (.err "FIRST on empty array" [] none)
  | noLast : DataFailure (.err "LAST on empty array" [] none)
  | negativeRoot : DataFailure (.err "Cannot take square root of negative number" [] none)
  | noNumber : DataFailure (.err "Cannot cast String to Float" [] none)
  | noMoney : DataFailure (.err "Cannot cast String to Currency" [] none)
  | percentile : DataFailure (.err "Percentile must be between 0 and 1" [] none)
  | quartile : DataFailure (.err "Quartile must be 0-4" [] none)
  | pmt : DataFailure (.err "PMT nper must be positive" [] none)
  | fv : DataFailure (.err "FV nper must be non-negative" [] none)
  | db : DataFailure (.err "DB arguments must be non-negative (life must be positive)" [] none)
  | ipmt : DataFailure (.err "IPMT period must be between 1 and nper" [] none)
  | noDate : DataFailure (.err "Invalid date" [] none)
  | addUnit : DataFailure (.err "DATEADD unit must be one of: days, hours, minutes, seconds, weeks, months, years" [] none)
  | diffUnit : DataFailure (.err "DATEDIFF unit must be one of: days, hours, minutes, seconds, weeks, months, years" [] none)
  /-- NaN among numbers to be sorted, or a month beyond the calendar (C24). -/
  | unwrapped : DataFailure (.panic "called `Option::unwrap()` on a `None` value")
  /-- A period of more than 2^63 milliseconds (C24). -/
  | longPeriod : DataFailure (.panic "TimeDelta out of bounds")
  /-- A datetime beyond the calendar (C24). -/
  | farDate : DataFailure (.panic "`DateTime + TimeDelta` overflowed")
  /-- Months or years beyond 2^31 (C24). -/
  | farMonth : DataFailure (.panic "attempt to add with overflow")
  /-- The index `-2^63` (C24). -/
  | extremeIndex : DataFailure (.panic "attempt to negate with overflow")

end Types
