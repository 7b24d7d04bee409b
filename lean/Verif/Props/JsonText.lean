import Verif.Lemmas.JsonPrint
import Verif.Props.JsonDocs
import Verif.Props.CacheKeys
import Verif.Props.JsonVars
/-! C127: what JSON texts are read as, and that what is written is read back. -/

open Lib

namespace JsonText

open JsonText.Spec

namespace Spec

mutual
/-- The doubles of a document. -/
def doubles : Json → List F64
  | .num (.float x) => [x]
  | .arr js => doublesItems js
  | .obj ms => doublesMembers ms
  | _ => []
/-- Those of its elements. -/
def doublesItems : List Json → List F64
  | [] => []
  | j :: js => doubles j ++ doublesItems js
/-- Those of its members. -/
def doublesMembers : List (Str × Json) → List F64
  | [] => []
  | (_, j) :: ms => doubles j ++ doublesMembers ms
end

/-- The last of the members named `k`. -/
def lastNamed (k : Str) (ms : List (Str × Json)) : Option Json := (ms.reverse.find? fun m => m.1 = k).map (·.2)

mutual
/-- `Keeps j j'`: `j'` is `j` with the members of every object in the order of their names, only the last of those with the same name. -/
inductive Keeps : Json → Json → Prop where
  | null : Keeps .null .null
  | bool (b : Bool) : Keeps (.bool b) (.bool b)
  | num (n : JNum) : Keeps (.num n) (.num n)
  | str (s : Str) : Keeps (.str s) (.str s)
  | arr {js js' : List Json} : KeepsItems js js' → Keeps (.arr js) (.arr js')
  | obj {ms ms' : List (Str × Json)} : (ms'.map Prod.fst).Pairwise (fun a b => Str.lt a b = true) →
      (∀ k, k ∈ ms'.map Prod.fst ↔ k ∈ ms.map Prod.fst) → KeepsMembers ms ms' → Keeps (.obj ms) (.obj ms')
/-- Element by element. -/
inductive KeepsItems : List Json → List Json → Prop where
  | nil : KeepsItems [] []
  | cons {j j' : Json} {js js' : List Json} : Keeps j j' → KeepsItems js js' → KeepsItems (j :: js) (j' :: js')
/-- Every member kept is the last of its name. -/
inductive KeepsMembers : List (Str × Json) → List (Str × Json) → Prop where
  | nil (ms : List (Str × Json)) : KeepsMembers ms []
  | cons {ms : List (Str × Json)} {k : Str} {j j' : Json} {ms' : List (Str × Json)} : lastNamed k ms = some j → Keeps j j' → KeepsMembers ms ms' → KeepsMembers ms ((k, j') :: ms')
end

mutual
/-- How deeply arrays are nested. -/
def nesting : Value → Nat
  | .arr vs => nestingAll vs + 1
  | _ => 0
/-- The deepest element. -/
def nestingAll : List Value → Nat
  | [] => 0
  | v :: vs => max (nesting v) (nestingAll vs)
end

mutual
/-- The numbers in a value. -/
def numbers : Value → List F64
  | .num x => [x]
  | .arr vs => numbersAll vs
  | _ => []
/-- Those of its elements. -/
def numbersAll : List Value → List F64
  | [] => []
  | v :: vs => numbers v ++ numbersAll vs
end

end Spec

/-! ### Normal form -/

theorem objInsert_keys (k : Str) (v : Json) : ∀ (ms : List (Str × Json)) (a : Str), a ∈ (objInsert k v ms).map Prod.fst ↔ a = k ∨ a ∈ ms.map Prod.fst
  | [], a => by simp [objInsert]
  | (k', v') :: ms, a => by
    rw [objInsert]
    by_cases h1 : k = k'
    · rw [if_pos h1]; subst h1; simp
    rw [if_neg h1]
    by_cases h2 : Str.lt k k' = true
    · rw [if_pos h2]; simp
    · rw [if_neg h2, List.map_cons, List.mem_cons, objInsert_keys k v ms a, List.map_cons, List.mem_cons]
      tauto

theorem objInsert_ordered (k : Str) (v : Json) : ∀ ms : List (Str × Json), (ms.map Prod.fst).Pairwise (fun a b => Str.lt a b = true) →
    ((objInsert k v ms).map Prod.fst).Pairwise (fun a b => Str.lt a b = true)
  | [], _ => by simp [objInsert]
  | (k', v') :: ms, h => by
    rw [List.map_cons, List.pairwise_cons] at h
    rw [objInsert]
    by_cases h1 : k = k'
    · rw [if_pos h1, List.map_cons, List.pairwise_cons]; subst h1; exact h
    rw [if_neg h1]
    by_cases h2 : Str.lt k k' = true
    · rw [if_pos h2, List.map_cons, List.pairwise_cons, List.map_cons, List.pairwise_cons]
      refine ⟨fun a ha => ?_, h⟩
      rcases List.mem_cons.1 ha with rfl | ha
      · exact h2
      · exact Str.lt_trans h2 (h.1 a ha)
    · rw [if_neg h2, List.map_cons, List.pairwise_cons]
      refine ⟨fun a ha => ?_, objInsert_ordered k v ms h.2⟩
      rcases (objInsert_keys k v ms a).1 ha with rfl | ha
      · by_contra hn
        exact h1 (Str.lt_tri _ _ (by simpa using h2) (by simpa using hn))
      · exact h.1 a ha

theorem objGet_insert (k : Str) (v : Json) : ∀ (ms : List (Str × Json)) (a : Str), objGet a (objInsert k v ms) = if a = k then some v else objGet a ms
  | [], a => by simp [objInsert, objGet]
  | (k', v') :: ms, a => by
    rw [objInsert]
    by_cases h1 : k = k'
    · rw [if_pos h1]; subst h1
      by_cases h : a = k <;> simp [objGet, h]
    rw [if_neg h1]
    by_cases h2 : Str.lt k k' = true
    · rw [if_pos h2]
      by_cases h : a = k <;> simp [objGet, h]
    · rw [if_neg h2]
      simp only [objGet, objGet_insert k v ms a]
      by_cases h : a = k
      · subst h; simp [h1]
      · simp [h]

theorem normMembers_ordered : ∀ (ms acc : List (Str × Json)), (acc.map Prod.fst).Pairwise (fun a b => Str.lt a b = true) →
    ((normMembers acc ms).map Prod.fst).Pairwise (fun a b => Str.lt a b = true)
  | [], acc, h => by rw [normMembers]; exact h
  | (k, j) :: ms, acc, h => by rw [normMembers]; exact normMembers_ordered ms _ (objInsert_ordered k _ acc h)

theorem lastNamed_cons (a k : Str) (j : Json) (ms : List (Str × Json)) :
    lastNamed a ((k, j) :: ms) = (lastNamed a ms).or (if a = k then some j else none) := by
  unfold lastNamed
  rw [List.reverse_cons, List.find?_append]
  cases ms.reverse.find? fun m => m.1 = a with
  | some m => simp
  | none =>
    by_cases h : a = k
    · subst h; simp
    · have : k ≠ a := fun e => h e.symm
      simp [h, this]

theorem normMembers_get : ∀ (ms acc : List (Str × Json)) (a : Str), objGet a (normMembers acc ms) = ((lastNamed a ms).map norm).or (objGet a acc)
  | [], acc, a => by rw [normMembers]; rfl
  | (k, j) :: ms, acc, a => by
    rw [normMembers, normMembers_get ms _ a, objGet_insert, lastNamed_cons]
    cases lastNamed a ms with
    | some m => rfl
    | none => by_cases h : a = k <;> simp [h]

theorem normMembers_keys : ∀ (ms acc : List (Str × Json)) (a : Str), a ∈ (normMembers acc ms).map Prod.fst ↔ a ∈ ms.map Prod.fst ∨ a ∈ acc.map Prod.fst
  | [], acc, a => by rw [normMembers]; simp
  | (k, j) :: ms, acc, a => by
    rw [normMembers, normMembers_keys ms _ a, objInsert_keys, List.map_cons, List.mem_cons]
    tauto

theorem objGet_ordered : ∀ {ms : List (Str × Json)}, (ms.map Prod.fst).Pairwise (fun a b => Str.lt a b = true) → ∀ {k : Str} {j : Json},
    (k, j) ∈ ms → objGet k ms = some j
  | (k', j') :: ms, h, k, j, hm => by
    rw [List.map_cons, List.pairwise_cons] at h
    rcases List.mem_cons.1 hm with e | hm
    · cases e; simp [objGet]
    · have hk := h.1 k (List.mem_map_of_mem hm)
      have hne : k ≠ k' := by rintro rfl; rw [Str.lt_irrefl] at hk; exact absurd hk (by simp)
      rw [objGet, if_neg hne, objGet_ordered h.2 hm]

theorem mem_of_objGet : ∀ {ms : List (Str × Json)} {k : Str} {j : Json}, objGet k ms = some j → (k, j) ∈ ms
  | (k', j') :: ms, k, j, h => by
    rw [objGet] at h
    by_cases e : k = k'
    · rw [if_pos e] at h; cases h; subst e; simp
    · rw [if_neg e] at h; exact List.mem_cons_of_mem _ (mem_of_objGet h)

/-- A map has one list of members in order. -/
theorem ordered_ext : ∀ {a b : List (Str × Json)}, (a.map Prod.fst).Pairwise (fun a b => Str.lt a b = true) →
    (b.map Prod.fst).Pairwise (fun a b => Str.lt a b = true) → (∀ k, objGet k a = objGet k b) → a = b
  | [], [], _, _, _ => rfl
  | [], (k, j) :: b, _, _, h => by have := h k; simp [objGet] at this
  | (k, j) :: a, [], _, _, h => by have := h k; simp [objGet] at this
  | (k, j) :: a, (k', j') :: b, ha, hb, h => by
    have ma := mem_of_objGet (h k' ▸ (show objGet k' ((k', j') :: b) = some j' by simp [objGet]))
    have mb := mem_of_objGet ((h k).symm ▸ (show objGet k ((k, j) :: a) = some j by simp [objGet]))
    rw [List.map_cons, List.pairwise_cons] at ha hb
    have hk : k = k' := by
      rcases List.mem_cons.1 ma with e | ma
      · cases e; rfl
      rcases List.mem_cons.1 mb with e | mb
      · cases e; rfl
      have := Str.lt_trans (ha.1 k' (List.mem_map_of_mem ma)) (hb.1 k (List.mem_map_of_mem mb))
      rw [Str.lt_irrefl] at this
      exact absurd this (by simp)
    subst hk
    have hj : j = j' := by have := h k; simpa [objGet] using this
    subst hj
    have hn : ∀ {ms : List (Str × Json)}, (∀ x ∈ ms.map Prod.fst, Str.lt k x = true) → objGet k ms = none := by
      intro ms hms
      cases hg : objGet k ms with
      | none => rfl
      | some v =>
        have := hms k (List.mem_map_of_mem (mem_of_objGet hg))
        rw [Str.lt_irrefl] at this
        exact absurd this (by simp)
    rw [ordered_ext ha.2 hb.2 fun x => ?_]
    by_cases hx : x = k
    · subst hx; rw [hn ha.1, hn hb.1]
    · have := h x
      rwa [objGet, objGet, if_neg hx, if_neg hx] at this

theorem lastNamed_mem {k : Str} {j : Json} {ms : List (Str × Json)} (h : lastNamed k ms = some j) : (k, j) ∈ ms := by
  unfold lastNamed at h
  obtain ⟨m, hm, rfl⟩ := Option.map_eq_some_iff.1 h
  have h1 := List.mem_reverse.1 (List.mem_of_find?_eq_some hm)
  have h2 : m.1 = k := by simpa using List.find?_some hm
  subst h2
  exact h1

theorem keepsMembers_of {ms : List (Str × Json)} : ∀ {ms' : List (Str × Json)},
    (∀ m ∈ ms', ∃ j, lastNamed m.1 ms = some j ∧ Keeps j m.2) → KeepsMembers ms ms'
  | [], _ => .nil ms
  | (k, j') :: ms', h => by
    obtain ⟨j, h1, h2⟩ := h (k, j') (by simp)
    exact .cons h1 h2 (keepsMembers_of fun m hm => h m (by simp [hm]))

mutual
theorem keeps_norm : ∀ j : Json, Keeps j (norm j)
  | .null => .null
  | .bool b => .bool b
  | .num n => .num n
  | .str s => .str s
  | .arr js => by rw [norm]; exact .arr (keepsItems_norm js)
  | .obj ms => by
    rw [norm]
    have ho := normMembers_ordered ms [] (by simp)
    refine .obj ho (fun k => by rw [normMembers_keys]; simp) (keepsMembers_of fun m hm => ?_)
    have hg := objGet_ordered ho hm
    rw [normMembers_get] at hg
    cases hl : lastNamed m.1 ms with
    | none => rw [hl] at hg; simp [objGet] at hg
    | some j =>
      rw [hl] at hg
      have e : norm j = m.2 := by simpa using hg
      exact ⟨j, rfl, e ▸ keepsAll_norm ms _ (lastNamed_mem hl)⟩
theorem keepsItems_norm : ∀ js : List Json, KeepsItems js (normItems js)
  | [] => .nil
  | j :: js => .cons (keeps_norm j) (keepsItems_norm js)
theorem keepsAll_norm : ∀ (ms : List (Str × Json)), ∀ m ∈ ms, Keeps m.2 (norm m.2)
  | [], m, hm => absurd hm (by simp)
  | (k, j) :: ms, m, hm => by
    rcases List.mem_cons.1 hm with e | hm
    · rw [e]; exact keeps_norm j
    · exact keepsAll_norm ms m hm
end

theorem keepsMembers_get {ms : List (Str × Json)} : ∀ {ms' : List (Str × Json)}, KeepsMembers ms ms' → ∀ {k : Str} {j' : Json}, objGet k ms' = some j' →
    ∃ j, lastNamed k ms = some j ∧ Keeps j j'
  | _, .nil _, k, j', h => by simp [objGet] at h
  | _, .cons (k := k0) h1 h2 hs, k, j', h => by
    rw [objGet] at h
    by_cases e : k = k0
    · rw [if_pos e] at h; cases h; subst e; exact ⟨_, h1, h2⟩
    · rw [if_neg e] at h; exact keepsMembers_get hs h

theorem objGet_none_iff (k : Str) : ∀ ms : List (Str × Json), objGet k ms = none ↔ k ∉ ms.map Prod.fst
  | [] => by simp [objGet]
  | (k', j) :: ms => by
    rw [objGet]
    by_cases e : k = k'
    · simp [e]
    · rw [if_neg e, objGet_none_iff k ms]; simp [e]

mutual
theorem norm_of_keeps : ∀ (j : Json) {j' : Json}, Keeps j j' → j' = norm j
  | .null, _, .null => rfl
  | .bool b, _, .bool _ => rfl
  | .num n, _, .num _ => rfl
  | .str s, _, .str _ => rfl
  | .arr js, _, .arr h => by rw [norm, normItems_of_keeps js h]
  | .obj ms, _, .obj (ms' := ms') ho hk hm => by
    rw [norm]
    refine congrArg _ (ordered_ext ho (normMembers_ordered ms [] (by simp)) fun k => ?_)
    rw [normMembers_get]
    cases hg : objGet k ms' with
    | some j' =>
      obtain ⟨j, h1, h2⟩ := keepsMembers_get hm hg
      rw [h1, normAll_of_keeps ms _ (lastNamed_mem h1) h2]
      rfl
    | none =>
      cases hl : lastNamed k ms with
      | none => rfl
      | some j => exact absurd ((hk k).2 (List.mem_map_of_mem (lastNamed_mem hl))) ((objGet_none_iff k ms').1 hg)
theorem normItems_of_keeps : ∀ (js : List Json) {js' : List Json}, KeepsItems js js' → js' = normItems js
  | [], _, .nil => rfl
  | j :: js, _, .cons h hs => by rw [normItems, ← norm_of_keeps j h, ← normItems_of_keeps js hs]
theorem normAll_of_keeps : ∀ (ms : List (Str × Json)), ∀ m ∈ ms, ∀ {j' : Json}, Keeps m.2 j' → j' = norm m.2
  | [], m, hm, _, _ => absurd hm (by simp)
  | (k, j) :: ms, m, hm, j', h => by
    rcases List.mem_cons.1 hm with e | hm
    · rw [e] at h ⊢; exact norm_of_keeps j h
    · exact normAll_of_keeps ms m hm h
end

theorem norm_iff {j j' : Json} : norm j = j' ↔ Keeps j j' :=
  ⟨fun h => h ▸ keeps_norm j, fun h => (norm_of_keeps j h).symm⟩

theorem norm_member {ms : List (Str × Json)} {m : Str × Json} (hm : m ∈ normMembers [] ms) : ∃ j, (m.1, j) ∈ ms ∧ m.2 = norm j := by
  have hg := objGet_ordered (normMembers_ordered ms [] (by simp)) hm
  rw [normMembers_get] at hg
  cases hl : lastNamed m.1 ms with
  | none => rw [hl] at hg; simp [objGet] at hg
  | some j => rw [hl] at hg; exact ⟨j, lastNamed_mem hl, by simpa using hg.symm⟩

theorem depthMembers_le {d : Nat} : ∀ {ms : List (Str × Json)}, depthMembers ms ≤ d ↔ ∀ m ∈ ms, depth m.2 ≤ d
  | [] => by simp [depthMembers]
  | (k, j) :: ms => by
    rw [depthMembers, List.forall_mem_cons, ← depthMembers_le, max_le_iff]

mutual
theorem depth_norm : ∀ j : Json, depth (norm j) ≤ depth j
  | .null => le_rfl
  | .bool b => le_rfl
  | .num n => le_rfl
  | .str s => le_rfl
  | .arr js => by rw [norm, depth, depth]; have := depthItems_norm js; omega
  | .obj ms => by
    rw [norm, depth, depth]
    have : depthMembers (normMembers [] ms) ≤ depthMembers ms := depthMembers_le.2 fun m hm => by
      obtain ⟨j, hj, e⟩ := norm_member hm
      rw [e]
      exact depthAll_norm ms _ hj
    omega
theorem depthItems_norm : ∀ js : List Json, depthItems (normItems js) ≤ depthItems js
  | [] => le_rfl
  | j :: js => by rw [normItems, depthItems, depthItems]; exact max_le_max (depth_norm j) (depthItems_norm js)
theorem depthAll_norm : ∀ (ms : List (Str × Json)), ∀ m ∈ ms, depth (norm m.2) ≤ depthMembers ms
  | [], m, hm => absurd hm (by simp)
  | (k, j) :: ms, m, hm => by
    rw [depthMembers]
    rcases List.mem_cons.1 hm with e | hm
    · rw [e]; exact le_trans (depth_norm j) (le_max_left _ _)
    · exact le_trans (depthAll_norm ms m hm) (le_max_right _ _)
end

mutual
/-- The integers of a document have 64 bits. -/
def ExactInts : Json → Prop
  | .num (.int i) => Exact i
  | .arr js => ExactItems js
  | .obj ms => ExactMembers ms
  | _ => True
/-- Element by element. -/
def ExactItems : List Json → Prop
  | [] => True
  | j :: js => ExactInts j ∧ ExactItems js
/-- Member by member. -/
def ExactMembers : List (Str × Json) → Prop
  | [] => True
  | (_, j) :: ms => ExactInts j ∧ ExactMembers ms
end

mutual
theorem val_exact {N : Floats} : ∀ {d : Nat} {j : Json} {t : Str}, Val N d j t → ExactInts j
  | _, _, _, .null d => by simp [ExactInts]
  | _, _, _, .yes d => by simp [ExactInts]
  | _, _, _, .no d => by simp [ExactInts]
  | _, _, _, .num d (.int i h) => by rw [ExactInts]; exact h
  | _, _, _, .num d (.float x t _ _ _) => by simp [ExactInts]
  | _, _, _, .str d h => by simp [ExactInts]
  | _, _, _, .arr0 d h => by simp [ExactInts, ExactItems]
  | _, _, _, .arr h => by rw [ExactInts]; exact items_exact h
  | _, _, _, .obj0 d h => by simp [ExactInts, ExactMembers]
  | _, _, _, .obj h => by rw [ExactInts]; exact members_exact h
theorem items_exact {N : Floats} : ∀ {d : Nat} {js : List Json} {t : Str}, Items N d js t → ExactItems js
  | _, _, _, .one _ h _ => ⟨val_exact h, trivial⟩
  | _, _, _, .cons _ h _ hi => ⟨val_exact h, items_exact hi⟩
theorem members_exact {N : Floats} : ∀ {d : Nat} {ms : List (Str × Json)} {t : Str}, Members N d ms t → ExactMembers ms
  | _, _, _, .one _ _ _ _ h _ => ⟨val_exact h, trivial⟩
  | _, _, _, .cons _ _ _ _ h _ hi => ⟨val_exact h, members_exact hi⟩
end

theorem soundMembers_of {N : Floats} : ∀ {ms : List (Str × Json)}, (∀ m ∈ ms, Sound N m.2) → SoundMembers N ms
  | [], _ => .nil
  | (k, j) :: ms, h => .cons (h (k, j) (by simp)) (soundMembers_of fun m hm => h m (by simp [hm]))

theorem doubles_member : ∀ {ms : List (Str × Json)} {m : Str × Json}, m ∈ ms → ∀ x ∈ doubles m.2, x ∈ doublesMembers ms
  | (k, j) :: ms, m, hm, x, hx => by
    rw [doublesMembers, List.mem_append]
    rcases List.mem_cons.1 hm with e | hm
    · rw [e] at hx; exact .inl hx
    · exact .inr (doubles_member hm x hx)

mutual
theorem sound_norm {N : Floats} : ∀ j : Json, ExactInts j → (∀ x ∈ doubles (norm j), FloatBack N x) → Sound N (norm j)
  | .null, _, _ => .null
  | .bool b, _, _ => .bool b
  | .num (.int i), h, _ => .int (by rwa [ExactInts] at h)
  | .num (.float x), _, hx => .float (hx x (by simp [norm, doubles]))
  | .str s, _, _ => .str s
  | .arr js, h, hx => by
    rw [norm]
    rw [norm, doubles] at hx
    rw [ExactInts] at h
    exact .arr (soundItems_norm js h hx)
  | .obj ms, h, hx => by
    rw [norm]
    rw [norm, doubles] at hx
    rw [ExactInts] at h
    refine .obj (soundMembers_of fun m hm => ?_) (normMembers_ordered ms [] (by simp))
    obtain ⟨j, hj, e⟩ := norm_member hm
    rw [e]
    exact soundAll_norm ms h _ hj (fun x hd => hx x (doubles_member hm x (e ▸ hd)))
theorem soundItems_norm {N : Floats} : ∀ js : List Json, ExactItems js → (∀ x ∈ doublesItems (normItems js), FloatBack N x) → SoundItems N (normItems js)
  | [], _, _ => .nil
  | j :: js, h, hx => by
    rw [normItems, doublesItems] at hx
    exact .cons (sound_norm j h.1 fun x hd => hx x (List.mem_append_left _ hd)) (soundItems_norm js h.2 fun x hd => hx x (List.mem_append_right _ hd))
theorem soundAll_norm {N : Floats} : ∀ (ms : List (Str × Json)), ExactMembers ms → ∀ m ∈ ms, (∀ x ∈ doubles (norm m.2), FloatBack N x) → Sound N (norm m.2)
  | [], _, m, hm, _ => absurd hm (by simp)
  | (k, j) :: ms, h, m, hm, hx => by
    rcases List.mem_cons.1 hm with e | hm
    · rw [e] at hx ⊢; exact sound_norm j h.1 hx
    · exact soundAll_norm ms h.2 m hm hx
end

/-! ### C127 -/

/-- **C127.** The texts that are read are those of the JSON grammar with brackets and braces nested at most 127 deep, and what is read is what the text stands for, members in the
order of their names, the last of those with the same name. -/
theorem C127_reads (N : Floats) (s : Str) (j : Json) : parse N s = some j ↔ ∃ d, Text N 127 d s ∧ Keeps d j := by
  unfold parse
  rw [Option.map_eq_some_iff]
  constructor
  · rintro ⟨d, h1, h2⟩
    exact ⟨d, (tree_iff N s d).1 h1, norm_iff.1 h2⟩
  · rintro ⟨d, h1, h2⟩
    exact ⟨d, (tree_iff N s d).2 h1, norm_iff.2 h2⟩

/-- **C127.** A text stands for at most one document. -/
theorem C127_unambiguous (N : Floats) (s : Str) (d d' : Nat) (j j' : Json) (h : Text N d j s) (h' : Text N d' j' s) : j = j' := text_unique h h'

/-- **C127.** What is written is read back, unless it is nested more than 127 deep; then it is not read at all. -/
theorem C127_round_trip (N : Floats) (j : Json) (h : Sound N j) :
    (depth j ≤ 127 → parse N (print N j) = some j) ∧ (127 < depth j → parse N (print N j) = none) := by
  constructor
  · intro hd
    exact (C127_reads N _ j).2 ⟨j, print_text h.fits hd, norm_iff.1 (norm_sound h)⟩
  · intro hd
    cases hp : parse N (print N j) with
    | none => rfl
    | some j' =>
      obtain ⟨d, h1, _⟩ := (C127_reads N _ j').1 hp
      have e := text_unique h1 (print_text h.fits le_rfl)
      subst e
      obtain ⟨_, t, _, _, _, hv, _⟩ := h1
      have := val_depth hv
      omega

/-- **C127.** What is written is a text of the grammar on one line, without control characters, and different documents are written differently. -/
theorem C127_writes (N : Floats) (j : Json) (h : Sound N j) :
    Text N (depth j) j (print N j) ∧ (∀ c ∈ print N j, 32 ≤ c.toNat) ∧ ∀ j', Sound N j' → print N j = print N j' → j = j' :=
  ⟨print_text h.fits le_rfl, print_oneLine h.fits, fun _ h' e => text_unique (print_text h.fits le_rfl) (e ▸ print_text h'.fits le_rfl)⟩

/-- **C127.** Whitespace around a text does not matter. -/
theorem C127_whitespace (N : Floats) (s w1 w2 : Str) (j : Json) (h1 : Blank w1) (h2 : Blank w2) (h : parse N s = some j) : parse N (w1 ++ (s ++ w2)) = some j := by
  obtain ⟨d, ⟨v1, t, v2, rfl, hv1, hv, hv2⟩, hk⟩ := (C127_reads N _ j).1 h
  refine (C127_reads N _ j).2 ⟨d, ⟨w1 ++ v1, t, v2 ++ w2, by simp, ?_, hv, ?_⟩, hk⟩
  · intro c hc
    rcases List.mem_append.1 hc with hc | hc
    · exact h1 c hc
    · exact hv1 c hc
  · intro c hc
    rcases List.mem_append.1 hc with hc | hc
    · exact hv2 c hc
    · exact h2 c hc

/-- **C127.** What has been read and is written again is read as the same document, if its doubles are. -/
theorem C127_reread (N : Floats) (s : Str) (j : Json) (h : parse N s = some j) (hx : ∀ x ∈ doubles j, FloatBack N x) : parse N (print N j) = some j := by
  obtain ⟨d, ⟨v1, t, v2, rfl, hv1, hv, hv2⟩, hk⟩ := (C127_reads N _ j).1 h
  have e := norm_iff.2 hk
  subst e
  refine (C127_round_trip N _ (sound_norm d (val_exact hv) hx)).1 ?_
  exact le_trans (depth_norm d) (val_depth hv)

/-! ### Values of the language -/

theorem readsBack_of {X : Ext} {N : Floats} (hu : Uses X N) {j : Json} (h : parse N (print N j) = some j) : _root_.Spec.ReadsBack X j := by
  unfold _root_.Spec.ReadsBack
  rw [hu.print]
  exact (hu.parse _ _).2 h

mutual
theorem toJson_sound (X : Ext) (N : Floats) : ∀ {v : Value}, _root_.Spec.Plain v → (∀ x ∈ numbers v, FloatBack N x) →
    ∃ j, v.toJson X = .ok j ∧ (v ≠ .null → Method.toJson X v = .ok (.json (X.jsonPrint j))) ∧ Method.toJsonValue X v = .ok j ∧ j.toValue X = v ∧ Sound N j ∧ depth j = nesting v
  | _, .null, _ => ⟨.null, rfl, fun h => absurd rfl h, rfl, rfl, .null, rfl⟩
  | _, .bool b, _ => ⟨.bool b, rfl, fun _ => rfl, rfl, rfl, .bool b, rfl⟩
  | _, .num (x := x) _ hf, hx => by
    refine ⟨.num (.float x), by simp [Value.toJson, Json.ofF64, hf], fun _ => ?_, by simp [Method.toJsonValue, Method.jsonNumber, hf], rfl, .float (hx x (by simp [numbers])), rfl⟩
    simp [Method.toJson, Method.toJsonValue, Method.jsonNumber, hf, bind, Except.bind, pure, Except.pure]
  | _, .str s, _ => ⟨.str s, rfl, fun _ => rfl, rfl, rfl, .str s, rfl⟩
  | _, .arr (vs := vs) h, hx => by
    rw [numbers] at hx
    obtain ⟨js, h1, h2, h3, h4, h5⟩ := toJsonList_sound X N h hx
    refine ⟨.arr js, by simp [Value.toJson, h1, bind, Except.bind, pure, Except.pure], fun _ => ?_,
      by simp [Method.toJsonValue, h2, bind, Except.bind, pure, Except.pure], by simp [Json.toValue, h3], .arr h4, by rw [depth, nesting, h5]⟩
    simp [Method.toJson, Method.toJsonValue, h2, bind, Except.bind, pure, Except.pure]
theorem toJsonList_sound (X : Ext) (N : Floats) : ∀ {vs : List Value}, _root_.Spec.PlainAll vs → (∀ x ∈ numbersAll vs, FloatBack N x) →
    ∃ js, Value.toJsonList X vs = .ok js ∧ Method.toJsonValues X vs = .ok js ∧ Json.toValues X js = vs ∧ SoundItems N js ∧ depthItems js = nestingAll vs
  | _, .nil, _ => ⟨[], rfl, rfl, rfl, .nil, rfl⟩
  | _, .cons (v := v) (vs := vs) h hs, hx => by
    rw [numbersAll] at hx
    obtain ⟨j, h1, _, h2, h3, h4, h5⟩ := toJson_sound X N h fun x hd => hx x (List.mem_append_left _ hd)
    obtain ⟨js, g1, g2, g3, g4, g5⟩ := toJsonList_sound X N hs fun x hd => hx x (List.mem_append_right _ hd)
    exact ⟨j :: js, by simp [Value.toJsonList, h1, g1, bind, Except.bind, pure, Except.pure], by simp [Method.toJsonValues, h2, g2, bind, Except.bind, pure, Except.pure],
      by simp [Json.toValues, h3, g3], .cons h4 g4, by rw [depthItems, nestingAll, h5, g5]⟩
end

/-- The reading of a text that is not read fails. -/
theorem parse_fails {X : Ext} {N : Floats} (hu : Uses X N) {s : Str} (h : parse N s = none) : ∃ why, X.jsonParse s = .error why := by
  cases hp : X.jsonParse s with
  | error e => exact ⟨e, rfl⟩
  | ok j => rw [(hu.parse s j).1 hp] at h; cases h

/-- **C127** for C42: a plain value put into an object is read out again as it was if its arrays are nested at most 126 deep; otherwise reading it fails. -/
theorem C127_through_object (X : Ext) (N : Floats) (hu : Uses X N) (v : Value) (hv : _root_.Spec.Plain v) (hx : ∀ x ∈ numbers v, FloatBack N x) :
    (nesting v ≤ 126 → _root_.Spec.throughObject X v = .ok v) ∧
    (126 < nesting v → ∃ why, _root_.Spec.throughObject X v = fail "Invalid JSON: {}" [why]) := by
  obtain ⟨j, h1, _, _, h2, hs, hd⟩ := toJson_sound X N hv hx
  have ho : Sound N (.obj [(c!"a", j)]) := .obj (.cons hs .nil) (by simp)
  have hdo : depth (.obj [(c!"a", j)]) = nesting v + 1 := by simp [depth, depthMembers, hd]
  rw [throughObject_eq, h1]
  constructor
  · intro hn
    have hb := readsBack_of hu ((C127_round_trip N _ ho).1 (by omega))
    unfold _root_.Spec.ReadsBack at hb
    simp only [Except.bind, parseJson, hb, Json.get, objGet, if_true, h2]
  · intro hn
    obtain ⟨why, hw⟩ := parse_fails hu ((C127_round_trip N _ ho).2 (by omega))
    refine ⟨why, ?_⟩
    rw [← hu.print] at hw
    simp only [Except.bind, parseJson, hw]
    rfl

theorem throughToJson_eq {X : Ext} {v : Value} {s : Str} (hm : Method.toJson X v = .ok (.json s)) :
    _root_.Spec.throughToJson X v = JsonFn.dig X [.json s, .arr []] := by
  unfold _root_.Spec.throughToJson
  rw [show ∀ e env, evalVars X e env = Eval.eval X e none env from fun _ _ => rfl]
  rw [call_eq_fn X c!"DIG" none _ _ [.json s, .arr []] (by decide) (by intro reg h; cases h)]
  · rw [fn_eq X _ _ (by decide)]
    rfl
  · refine .plain (by simp) ?_ (.plain (by simp) ?_ .nil)
    · simp only [Eval.eval, Legacy.argsOf]
      change Method.toJson X v = _
      exact hm
    · simp only [Eval.eval, Eval.argsOf]; rfl

/-- **C127** for C42: a plain value other than null turned into JSON text is read again as it was if its arrays are nested at most 127 deep; otherwise reading it fails. -/
theorem C127_through_text (X : Ext) (N : Floats) (hu : Uses X N) (v : Value) (hv : _root_.Spec.Plain v) (hnull : v ≠ .null) (hx : ∀ x ∈ numbers v, FloatBack N x) :
    (nesting v ≤ 127 → _root_.Spec.throughToJson X v = .ok v) ∧
    (127 < nesting v → ∃ why, _root_.Spec.throughToJson X v = fail "Invalid JSON: {}" [why]) := by
  obtain ⟨j, _, h1, _, h2, hs, hd⟩ := toJson_sound X N hv hx
  rw [throughToJson_eq (h1 hnull)]
  constructor
  · intro hn
    have hb := readsBack_of hu ((C127_round_trip N _ hs).1 (by omega))
    unfold _root_.Spec.ReadsBack at hb
    simp [JsonFn.dig, argAt, hb, JsonFn.digPath, h2]
  · intro hn
    obtain ⟨why, hw⟩ := parse_fails hu ((C127_round_trip N _ hs).2 (by omega))
    rw [← hu.print] at hw
    exact ⟨why, by simp [JsonFn.dig, argAt, hw]⟩

/-- **C127** for C44: the variables that a caller writes as a JSON object, under names that stay different when they are made clean, are the variables that the expression reads. -/
theorem C127_variables (X : Ext) (N : Floats) (hu : Uses X N) (ms : List (Str × Json)) (hs : Sound N (.obj ms)) (hd : depth (.obj ms) ≤ 127)
    (hc : ∀ m ∈ ms, ∀ m' ∈ ms, ∀ n, _root_.Spec.CleanName X m.1 n → _root_.Spec.CleanName X m'.1 n → m = m') (ha : ∀ m ∈ ms, ¬ _root_.Spec.CleanName X m.1 c!"arguments")
    (k : Str) (j : Json) (hm : (k, j) ∈ ms) (n : Str) (hn : _root_.Spec.CleanName X k n) (hv : _root_.Spec.VarName n) :
    evaluateWithJson X (':' :: n) (print N (.obj ms)) = .ok (Json.toValue X j) :=
  (C44_read_partial X _ ms ((hu.parse _ _).2 ((C127_round_trip N _ hs).1 hd)) hc ha k j hm n hn hv).1

/-- **C127.** A text that is not in the grammar, or is nested too deeply, is refused as variables. -/
theorem C127_variables_refused (X : Ext) (N : Floats) (hu : Uses X N) (input text : Str) (h : ¬ ∃ d, Text N 127 d text) :
    ∃ why, evaluateWithJson X input text = fail "Invalid JSON: {}" [why] := by
  have hp : parse N text = none := by
    cases hp : parse N text with
    | none => rfl
    | some j => obtain ⟨d, hd, _⟩ := (C127_reads N _ j).1 hp; exact absurd ⟨d, hd⟩ h
  obtain ⟨why, hw⟩ := parse_fails hu hp
  refine ⟨why, ?_⟩
  unfold evaluateWithJson jsonVars parseJson
  rw [hw]
  rfl

/-! ### Cases -/

/-- Doubles, as far as the samples need them. -/
def halves : Floats := ⟨fun _ => c!"0.5", fun t => if t = c!"0.5" ∨ t = c!"5e-1" then some (.fin (1 / 2)) else none⟩

/-- A world that uses them. -/
def halvesExt : Ext := { sampleExt with
  jsonPrint := print halves
  jsonParse := fun s => match parse halves s with
    | some j => .ok j
    | none => .error c!"not JSON" }

theorem halvesExt_uses : Uses halvesExt halves where
  print _ := rfl
  parse s j := by
    change (match parse halves s with | some j => Except.ok j | none => Except.error c!"not JSON") = .ok j ↔ _
    cases parse halves s <;> simp

theorem half_back : FloatBack halves (.fin (1 / 2)) := by
  refine ⟨⟨[], c!"0", c!".5", [], .inl rfl, ⟨⟨by simp, ?_⟩, fun _ => rfl⟩, .some ⟨by simp, ?_⟩, .none, rfl⟩, ?_, rfl⟩
  · intro c hc; revert c; decide
  · intro c hc; revert c; decide
  · rintro ⟨i, _, h⟩
    obtain ⟨neg, ds, hd, e⟩ := showInt_parts i
    rw [e] at h
    change c!"0.5" = _ at h
    cases neg with
    | true => simp at h
    | false =>
      have := hd.1.2 '.' (by simp only [Bool.false_eq_true, if_false, List.nil_append] at h; rw [← h]; decide)
      revert this; decide

/-- A document with escapes, both kinds of numbers and nested members. -/
def sampleText : Str := c!" {\"b\" : [1, 5e-1, \"\\u0041\\n\"], \"a\": -7, \"b\": {\"x\\/y\": null}} "
/-- As it is read. -/
def sampleTree : Json := .obj [(c!"a", .num (.int (-7))), (c!"b", .obj [(c!"x/y", .null)])]

example : parse halves sampleText = some sampleTree := by kernel_rfl
example : print halves sampleTree = c!"{\"a\":-7,\"b\":{\"x/y\":null}}" := by decide +kernel
example : parse halves (print halves sampleTree) = some sampleTree := by kernel_rfl
example : parse halves c!"[1, 5e-1, \"\\u0041\\n\", \"\\ud83d\\ude00\"]" = some (.arr [.num (.int 1), .num (.float (.fin (1 / 2))), .str c!"A\n", .str c!"😀"]) := by
  kernel_rfl
example : ∀ s ∈ [c!"01", c!"+1", c!"1.", c!".5", c!"[1,]", c!"[1 2]", c!"nul", c!"tru e", c!"'a'", c!"\"a", c!"\"\n\"", c!"\"\\x41\"", c!"\"\\ud83d\"", c!"{a:1}", c!"{\"a\"}", c!"{} {}", c!"", c!"// x\n1"],
    parse halves s = none := by decide +kernel
example : parse halves c!"18446744073709551615" = some (.num (.int 18446744073709551615)) ∧ parse halves c!"-9223372036854775808" = some (.num (.int (-9223372036854775808))) := by
  constructor <;> kernel_rfl

theorem sampleTree_sound : Sound halves sampleTree := by
  refine .obj (.cons (.int ?_) (.cons (.obj (.cons .null .nil) (by simp)) .nil)) (by decide)
  constructor <;> decide

example : depth sampleTree ≤ 127 := by decide +kernel

/-- Arrays inside one another. -/
def nest : Nat → Value
  | 0 => .num (.fin (1 / 2))
  | n + 1 => .arr [nest n]

theorem nest_plain : ∀ n, _root_.Spec.Plain (nest n) ∧ numbers (nest n) = [.fin (1 / 2)] ∧ nesting (nest n) = n
  | 0 => ⟨.num ⟨by norm_num, 1, -1, by norm_num, by norm_num, by norm_num, by norm_num⟩ rfl, rfl, rfl⟩
  | n + 1 => by
    obtain ⟨h1, h2, h3⟩ := nest_plain n
    exact ⟨.arr (.cons h1 .nil), by simp [nest, numbers, numbersAll, h2], by simp [nest, nesting, nestingAll, h3]⟩

/-- 126 brackets are read back, 127 are not. -/
example : _root_.Spec.throughObject halvesExt (nest 126) = .ok (nest 126) ∧ ∃ why, _root_.Spec.throughObject halvesExt (nest 127) = fail "Invalid JSON: {}" [why] := by
  have h : ∀ n, ∀ x ∈ numbers (nest n), FloatBack halves x := fun n x hx => by
    rw [(nest_plain n).2.1] at hx
    rw [List.mem_singleton.1 hx]
    exact half_back
  exact ⟨(C127_through_object _ _ halvesExt_uses _ (nest_plain 126).1 (h 126)).1 (by rw [(nest_plain 126).2.2]),
    (C127_through_object _ _ halvesExt_uses _ (nest_plain 127).1 (h 127)).2 (by rw [(nest_plain 127).2.2]; decide)⟩

end JsonText
