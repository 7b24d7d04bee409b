import Verif.Model.Array
/-! `src/runtime/statistical.rs`. -/

namespace Stat

mutual
/-- Models `src/runtime/statistical.rs:9-20` (`collect_nums`, repeated in every arm). -/
def collect : Value → List F64
  | .num n => [n]
  | .cur n => [n]
  | .arr items => collects items
  | _ => []
/-- Models the loops of `src/runtime/statistical.rs:14-16,21-23`. -/
def collects : List Value → List F64
  | [] => []
  | v :: vs => collect v ++ collects vs
end

/-- `nums[i]`: a panic when out of bounds. -/
def at' (nums : List F64) (i : Nat) : Res F64 :=
  match nums[i]? with
  | some x => .ok x
  | none => panics "index out of bounds"

/-- `MEDIAN`. Models `src/runtime/statistical.rs:7-34`. -/
def median : Builtin := fun args => do
  let nums := collects args
  if nums.isEmpty then return .num (.zero false)
  let nums ← Arr.sortNums nums
  let len := nums.length
  if len % 2 = 0 then
    let a ← at' nums (len / 2 - 1)
    let b ← at' nums (len / 2)
    return .num (F64.div (F64.add a b) (.fin 2))
  else
    return .num (← at' nums (len / 2))

/-- How often `x` occurs, by bits. Models `src/runtime/statistical.rs:59-60`. -/
def occurrences (nums : List F64) (x : F64) : Nat := (nums.filter fun y => y = x).length

/-- The largest number of occurrences. Models `src/runtime/statistical.rs:64`. -/
def maxCount (nums : List F64) : Nat := nums.foldl (fun m x => max m (occurrences nums x)) 0

/-- `MODE.SNGL`. Models `src/runtime/statistical.rs:35-73`: of the numbers occurring most often, the
one whose first occurrence comes first. The two hash maps (counts and first positions by bits) are
replaced by counting in the list; bits are modelled by `F64`, which identifies NaN payloads. -/
def mode : Builtin := fun args =>
  let nums := collects args
  if nums.isEmpty then .ok (.num (.zero false))
  else match nums.find? (fun x => occurrences nums x == maxCount nums) with
    | some x => .ok (.num x)
    | none => panics "called `Option::unwrap()` on a `None` value"

/-- `iter().sum::<f64>()` (core library). The sign of a zero start does not reach the results here. -/
def fsum (nums : List F64) : F64 := nums.foldl F64.add (.zero false)

/-- Population variance. Models `src/runtime/statistical.rs:95-96,120-121`; `powi(2)` is one
multiplication. -/
def variance (nums : List F64) : F64 :=
  let n := F64.ofNat nums.length
  let mean := F64.div (fsum nums) n
  F64.div (fsum (nums.map fun x => F64.mul (F64.sub x mean) (F64.sub x mean))) n

/-- `STDEV.P`. Models `src/runtime/statistical.rs:74-98`. -/
def stdevP (X : Ext) : Builtin := fun args =>
  let nums := collects args
  if nums.isEmpty then .ok (.num (.zero false)) else .ok (.num (X.sqrt (variance nums)))

/-- `VAR.P`. Models `src/runtime/statistical.rs:99-123`. -/
def varP : Builtin := fun args =>
  let nums := collects args
  if nums.isEmpty then .ok (.num (.zero false)) else .ok (.num (variance nums))

/-- Interpolation at `percentile` in a non-empty list. Models `src/runtime/statistical.rs:159-172`
and `207-220`. -/
def interpolate (nums : List F64) (percentile : F64) : Res Value := do
  let nums ← Arr.sortNums nums
  let len := F64.ofNat nums.length
  let rank := F64.mul percentile (F64.sub len (.fin 1))
  let rankFloor := rank.floor.toUsize
  let rankCeil := rank.ceil.toUsize
  if rankFloor = rankCeil ∨ rankCeil ≥ nums.length then
    return .num (← at' nums (min rankFloor (nums.length - 1)))
  else
    let weight := F64.sub rank (F64.ofNat rankFloor)
    let a ← at' nums rankFloor
    let b ← at' nums rankCeil
    return .num (F64.add (F64.mul a (F64.sub (.fin 1) weight)) (F64.mul b weight))

/-- `PERCENTILE.INC`. Models `src/runtime/statistical.rs:124-173`. -/
def percentile : Builtin := fun args =>
  if args.length < 2 then fail "PERCENTILE.INC expects array and percentile" else
  let nums := collects args.dropLast
  match args.getLast? with
  | some (.num p) =>
    if nums.isEmpty then .ok (.num (.zero false))
    else if F64.flt p (.zero false) || F64.fgt p (.fin 1) then fail "Percentile must be between 0 and 1"
    else interpolate nums p
  | _ => fail "Percentile must be a number"

/-- `QUARTILE.INC`. Models `src/runtime/statistical.rs:174-221`. -/
def quartile : Builtin := fun args =>
  if args.length < 2 then fail "QUARTILE.INC expects array and quartile" else
  let nums := collects args.dropLast
  match args.getLast? with
  | some (.num q) =>
    let k := q.toI32
    if nums.isEmpty then .ok (.num (.zero false))
    else if k < 0 ∨ k > 4 then fail "Quartile must be 0-4"
    else interpolate nums (F64.div (F64.ofInt k) (.fin 4))
  | _ => fail "Quartile must be a number"

/-- The arms of `src/runtime/statistical.rs:6-221`. -/
def table (X : Ext) : List (Str × Builtin) :=
  [(c!"MEDIAN", median),
   (c!"MODE.SNGL", mode), (c!"MODESNGL", mode), (c!"MODE_SNGL", mode),
   (c!"STDEV.P", stdevP X), (c!"STDEVP", stdevP X), (c!"STDEV_P", stdevP X),
   (c!"VAR.P", varP), (c!"VARP", varP), (c!"VAR_P", varP),
   (c!"PERCENTILE.INC", percentile), (c!"PERCENTILEINC", percentile), (c!"PERCENTILE_INC", percentile),
   (c!"QUARTILE.INC", quartile), (c!"QUARTILEINC", quartile), (c!"QUARTILE_INC", quartile)]

end Stat

/-- Models `src/runtime/statistical.rs:5-227` (`exec_statistical`). -/
def execStatistical (X : Ext) (name : Str) (args : List Value) : Res Value :=
  match lookupFn name (Stat.table X) with
  | some f => f args
  | none => fail "Unknown statistical function: {}" [name]
