import Verif.Check.RepoTests
import Verif.Model.Http
import Verif.Model.HttpCache
import Verif.Model.HttpReplies
import Verif.Model.MemoryPool
import Verif.Model.ConcurrentRegistry
/-! The model run on the unit tests inside the sources of the repository, as far as they are about what is modelled. Like `Check/RepoTests.lean` these are
tests of the model, not proofs of properties. -/

namespace UnitTests
open RepoTests

/-! `src/bin/http_server/multipart.rs:160-200` -/

/-- The boundary of the tests. -/
def boundary : Str := c!"----WebKitFormBoundary7MA4YWxkTrZu0gW"

theorem boundary_extraction :
    Http.boundaryOf (Str.split c!"multipart/form-data; boundary=----WebKitFormBoundary7MA4YWxkTrZu0gW" c!";") = some boundary := by decide +kernel

theorem content_disposition_parsing :
    (Http.disposition c!"Content-Disposition: form-data; name=\"file\"; filename=\"test.js\"").toOption.map (fun ps => (ps.get c!"name", ps.get c!"filename")) =
      some (some c!"file", some c!"test.js") := by decide +kernel

/-- The body of the test. -/
def body : Str :=
  c!"------WebKitFormBoundary7MA4YWxkTrZu0gW\nContent-Disposition: form-data; name=\"filename\"\n\ntest.js\n------WebKitFormBoundary7MA4YWxkTrZu0gW\nContent-Disposition: form-data; name=\"file\"; filename=\"test.js\"\nContent-Type: application/javascript\n\nfunction test() { return 42; }\n------WebKitFormBoundary7MA4YWxkTrZu0gW--"

theorem multipart_parsing :
    (Http.multipart world body boundary).toOption.map (fun fs =>
      (Http.textField fs c!"filename", (fs.find? fun f => f.name = c!"file").map (·.filename), Http.fileField fs c!"file")) =
      some (some c!"test.js", some (some c!"test.js"), some c!"function test() { return 42; }") := by decide +kernel

/-! `src/js_plugin.rs:344-410`, the reading of the comments -/

/-- The file of the first test. -/
def doubleFile : Str :=
  c!"\n            // @name: DOUBLE\n            // @min_args: 1\n            // @max_args: 1\n            // @description: Doubles a number\n            // @example: DOUBLE(5) returns 10\n            \n            function execute(args) {\n                return args[0] * 2;\n            }\n        "

theorem js_function_parsing :
    (Http.parseJs doubleFile).toOption.map (fun f => (f.name, f.minArgs, f.maxArgs, f.example_)) =
      some (c!"DOUBLE", 1, some 1, some c!"DOUBLE(5) returns 10") ∧
    HttpReply.describe doubleFile = some c!"Doubles a number" := by decide +kernel

/-! `src/runtime/jsonpath.rs:123-160` -/

theorem jsonpath_basic :
    meets (.is (.arr [.num (F64.round 100), .num (F64.round 200)]))
      (JsonFn.applyJsonPath world (.json c!"{\"accounts\": [{\"amount\": 100.0}, {\"amount\": 200.0}]}") c!"$.accounts[*].amount") = true := by kernel_rfl

theorem extract_numeric_values :
    JsonFn.extractNumeric (.arr [.num (F64.round 100), .num (F64.round 200)]) = [F64.round 100, F64.round 200] := by decide +kernel

/-! `src/custom.rs:128-175` and `src/concurrent_registry.rs:189-260` -/

/-- The functions of the tests: they say how many arguments they were given. -/
def counting (name : Str) (least most : Nat) : CustomFn := ⟨name, least, some most, fun args => .ok (.str (name ++ c!"(" ++ Str.showInt args.length ++ c!")"))⟩

theorem function_registry :
    (do
      let r ← Registry.register world Registry.empty (counting c!"TEST" 1 2)
      let one := F64.round 1
      return [r.has world c!"TEST", r.has world c!"test", meets .works (r.execute world c!"TEST" [.num one]), meets .fails (r.execute world c!"TEST" []),
        meets .fails (r.execute world c!"TEST" [.num one, .num one, .num one]), (r.unregister world c!"TEST").2, !(r.unregister world c!"TEST").1.has world c!"TEST"] :
      Res (List Bool)) = .ok (List.replicate 7 true) := by kernel_rfl

/-- The registry of the second test. -/
def two : Res ConcReg := do ConcReg.register world (← ConcReg.register world ConcReg.empty (counting c!"FUNC1" 0 2)) (counting c!"FUNC2" 0 2)

theorem concurrent_registry :
    (do
      let r ← two
      return (r.len, r.has world c!"FUNC1", r.has world c!"func1", meets (.is (.str c!"FUNC1(0)")) (r.execute world c!"FUNC1" [])) :
      Res (Nat × Bool × Bool × Bool)) = .ok (2, true, true, true) := by kernel_rfl

theorem thread_local_cache :
    (do
      let r ← two
      let (c, a) := LocalCache.execute world r LocalCache.new c!"FUNC1" []
      let (c, b) := LocalCache.execute world r c c!"FUNC1" []
      return (meets (.is (.str c!"FUNC1(0)")) a, meets (.is (.str c!"FUNC1(0)")) b, c.stats) :
      Res (Bool × Bool × Nat × Nat)) = .ok (true, true, 1, 1) := by kernel_rfl

/-! `src/memory_pool.rs:206-270` -/

theorem variable_context_pool :
    let w := MemPool.World.after 2 [.acquire, .acquire, .insert 0 c!"x" (.bool true), .insert 1 c!"y" (.bool false), .drop 0, .drop 1, .acquire]
    (w.read 2).map (fun e => (e c!"x").isNone) = some true ∧ 0 < w.pool.stats.2.2 := by decide +kernel

/-- The base of the test. -/
def base : Env := (Env.empty.insert c!"x" (.str c!"1")).insert c!"y" (.str c!"2")

theorem cow_variable_context :
    let c := MemPool.Cow.new base
    let d := c.insert c!"z" (.str c!"3")
    let e := d.insert c!"x" (.str c!"10")
    c.get c!"x" = some (.str c!"1") ∧ c.isModified = false ∧ d.isModified = true ∧ d.get c!"z" = some (.str c!"3") ∧ d.get c!"x" = some (.str c!"1") ∧
    e.get c!"x" = some (.str c!"10") := ⟨rfl, rfl, rfl, rfl, rfl, rfl⟩

/-! `src/bin/http_server/cache.rs:280-335` -/

/-- The request of the test. -/
def ask : HttpCache.Request := ⟨c!"2+2", [], false⟩

/-- The cache after the two requests of the test. -/
def asked : HttpCache.Cache := ((HttpCache.Server.start world Registry.empty 10).after [.request ask, .store 0, .request ask]).cache

theorem expression_cache : (asked.stats.hits, asked.stats.misses) = (1, 1) := by decide +kernel

theorem cache_key_generation :
    HttpCache.key world c!"test" [(c!"a", .num (F64.round 1)), (c!"b", .num (F64.round 2))] =
      HttpCache.key world c!"test" [(c!"b", .num (F64.round 2)), (c!"a", .num (F64.round 1))] := by decide +kernel

end UnitTests
