import Verif.Model.HttpOutput
import Verif.Model.CliOutput
import Verif.Spec.Call
/-! C89: results are sent faithfully. -/

namespace Output.Spec

/-- Values that JSON can carry: texts, booleans, null, finite numbers and arrays of these. -/
inductive Sendable : Value → Prop
  | num {n : F64} : n.isFinite = true → Sendable (.num n)
  | str (s : Str) : Sendable (.str s)
  | bool (b : Bool) : Sendable (.bool b)
  | null : Sendable .null
  | arr {vs : List Value} : (∀ v ∈ vs, Sendable v) → Sendable (.arr vs)

/-- An array inside an array. -/
def Nested : Value → Prop
  | .arr vs => ∃ v ∈ vs, ∃ ws, v = .arr ws
  | _ => False

/-- An array with a date in it. -/
def HasDate : Value → Prop
  | .arr vs => ∃ v ∈ vs, ∃ t, v = .dt t
  | _ => False

end Output.Spec

namespace Output
open Output.Spec

theorem ofF64_finite {n : F64} (h : n.isFinite = true) : Json.ofF64 n = .num (.float n) := by unfold Json.ofF64; rw [if_pos h]

/-- **C89.** Over HTTP every value that JSON can carry arrives unchanged, at any depth: reading the result the way arguments are read gives the value back. -/
theorem C89_http_round_trip_partial (X : Ext) (v : Value) (h : Sendable v) : Json.toValue X (Http.simpleOutput X v) = v := by
  induction h with
  | num h => simp only [Http.simpleOutput, ofF64_finite h]; rfl
  | str s => rfl
  | bool b => rfl
  | null => rfl
  | @arr vs hs ih =>
    simp only [Http.simpleOutput, Json.toValue]
    congr 1
    induction vs with
    | nil => rfl
    | cons v vs ihv =>
      simp only [Http.simpleOutputs, Json.toValues]
      rw [ih v List.mem_cons_self, ihv (fun w hw => hs w (List.mem_cons_of_mem _ hw)) (fun w hw => ih w (List.mem_cons_of_mem _ hw))]

/-- Different values that JSON can carry are sent differently. -/
theorem C89_http_injective_partial (X : Ext) (v w : Value) (hv : Sendable v) (hw : Sendable w) (h : Http.simpleOutput X v = Http.simpleOutput X w) : v = w := by
  rw [← C89_http_round_trip_partial X v hv, ← C89_http_round_trip_partial X w hw, h]

/-- **C89.** The structured form tells the type, and carries the same value. -/
theorem C89_structured (X : Ext) (v : Value) (h : ∀ t, v ≠ .dt t) :
    Http.resultJson X (some true) v = .obj [(c!"result", Http.resultJson X none v), (c!"type", .str (match v with
      | .num _ => c!"Number" | .str _ => c!"String" | .bool _ => c!"Boolean" | .cur _ => c!"Currency"
      | .dt _ => c!"DateTime" | .arr _ => c!"Array" | .null => c!"Null" | .json _ => c!"Json"))] := by
  cases v with
  | dt t => exact absurd rfl (h t)
  | _ => rfl

/-- **C89.** What JSON cannot carry loses its type or its value in the plain form: amounts become numbers, dates texts, and numbers that are not finite null. -/
theorem C89_lost (X : Ext) (n : F64) (t : ℤ) :
    Http.resultJson X none (.cur n) = Http.resultJson X none (.num n) ∧
    Http.resultJson X none (.dt t) = Http.resultJson X none (.str (Str.showInt t)) ∧
    Http.resultJson X none (.num .nan) = Http.resultJson X none .null ∧ Http.resultJson X none (.num (.inf false)) = Http.resultJson X none .null := by
  exact ⟨rfl, rfl, rfl, rfl⟩

theorem element_simple (X : Ext) (v : Value) (h : ∀ ws, v ≠ .arr ws) : Tcp.element X false v = Http.simpleOutput X v := by
  cases v with
  | arr ws => exact absurd rfl (h ws)
  | json s => rfl
  | dt t => rfl
  | _ => rfl

theorem elements_simple (X : Ext) : ∀ vs : List Value, (∀ v ∈ vs, ∀ ws, v ≠ .arr ws) → vs.map (Tcp.element X false) = Http.simpleOutputs X vs
  | [], _ => rfl
  | v :: vs, h => by
    rw [List.map_cons, Http.simpleOutputs, element_simple X v (h v List.mem_cons_self), elements_simple X vs fun w hw => h w (List.mem_cons_of_mem _ hw)]

/-- **C89.** The TCP server sends the same, unless an array is inside an array. -/
theorem C89_tcp_partial (X : Ext) (v : Value) (h : ¬ Nested v) : Tcp.resultJson X none v = Http.resultJson X none v := by
  change Tcp.output X false v = Http.simpleOutput X v
  cases v with
  | arr vs =>
    simp only [Tcp.output, Http.simpleOutput]
    rw [elements_simple X vs]
    intro v hv ws e
    exact h ⟨v, hv, ws, e⟩
  | _ => rfl

/-- And in the structured form unless there is a date in an array. -/
theorem C89_tcp_structured_partial (X : Ext) (v : Value) (h : ¬ Nested v) (hd : ¬ HasDate v) : Tcp.resultJson X (some true) v = Http.resultJson X (some true) v := by
  have e : Tcp.output X true v = Http.structuredValue X v := by
    cases v with
    | arr vs =>
      simp only [Tcp.output, Http.structuredValue, Http.simpleOutput]
      congr 1
      rw [← elements_simple X vs (fun v hv ws e => h ⟨v, hv, ws, e⟩)]
      refine List.map_congr_left fun v hv => ?_
      cases v with
      | dt t => exact absurd ⟨_, hv, t, rfl⟩ hd
      | _ => rfl
    | dt t => rfl
    | _ => rfl
  change Json.obj [(c!"result", Tcp.output X true v), _] = Json.obj [(c!"result", Http.structuredValue X v), _]
  rw [e]

/-- Where they differ: the TCP server sends an inner array as a text, and a date in an array of the structured form as a number. -/
theorem C89_tcp_differs (X : Ext) (t : ℤ) :
    (Tcp.resultJson X none (.arr [.arr []]) = .arr [.str (X.dbg (.arr []))] ∧ Http.resultJson X none (.arr [.arr []]) = .arr [.arr []]) ∧
    (Tcp.resultJson X (some true) (.arr [.dt t]) = .obj [(c!"result", .arr [.num (.int t)]), (c!"type", .str c!"Array")] ∧
      Http.resultJson X (some true) (.arr [.dt t]) = .obj [(c!"result", .arr [.str (Str.showInt t)]), (c!"type", .str c!"Array")]) :=
  ⟨⟨rfl, rfl⟩, rfl, rfl⟩

/-- **C89.** The command line tool prints, with `--output-json`, what the TCP server sends in its structured form. -/
theorem C89_sk (X : Ext) (v : Value) : Cli.jsonOutput X v = Tcp.resultJson X (some true) v := by
  cases v with
  | arr vs =>
    have h : ∀ w : Value, Cli.jsonElement X w = Tcp.element X true w := fun w => by cases w <;> rfl
    show Json.obj [(c!"result", .arr (vs.map (Cli.jsonElement X))), _] = Json.obj [(c!"result", .arr (vs.map (Tcp.element X true))), _]
    rw [show Cli.jsonElement X = Tcp.element X true from funext h]
    rfl
  | _ => rfl

/-- **C89.** Flat values that JSON can carry are read back from what the tool prints. -/
theorem C89_sk_round_trip_partial (X : Ext) (v : Value) (h : Sendable v) (hn : ¬ Nested v) :
    ∃ r t, Cli.jsonOutput X v = .obj [(c!"result", r), (c!"type", .str t)] ∧ Json.toValue X r = v := by
  have hd : ¬ HasDate v := by
    intro hd
    cases h with
    | arr hs =>
      obtain ⟨w, hw, t, rfl⟩ := hd
      cases hs _ hw
    | _ => cases hd
  refine ⟨_, _, (C89_sk X v).trans (C89_tcp_structured_partial X v hn hd), ?_⟩
  have : Http.structuredValue X v = Http.simpleOutput X v := by cases h <;> rfl
  rw [this]
  exact C89_http_round_trip_partial X v h

example : Sendable (.arr [.num (.fin 1), .arr [.str c!"a", .null], .bool true]) := by
  refine .arr fun v hv => ?_
  simp only [List.mem_cons, List.not_mem_nil, or_false] at hv
  rcases hv with rfl | rfl | rfl
  · exact .num rfl
  · refine .arr fun v hv => ?_
    simp only [List.mem_cons, List.not_mem_nil, or_false] at hv
    rcases hv with rfl | rfl
    · exact .str _
    · exact .null
  · exact .bool _
example : ¬ Nested (.arr [.num (.fin 1), .dt 0]) := by rintro ⟨v, hv, ws, rfl⟩; simp at hv

end Output
