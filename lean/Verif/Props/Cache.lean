import Verif.Model.HttpCache
import Mathlib.Data.List.Induction
import Mathlib.Data.Finset.Card
import Mathlib.Data.Finset.Dedup
import Mathlib.Data.List.Nodup
/-! C51: the cache keeps to its capacity and evicts the least recently used entry. C52: its statistics. -/

open HttpCache

namespace Spec

/-- An access to the cache. -/
inductive Access where
  | get (k : Str)
  | put (k : Str) (e : Entry)
  | clear

/-- The key an access is about. -/
def Access.key? : Access → Option Str
  | .get k => some k
  | .put k _ => some k
  | .clear => none

/-- The cache after an access. -/
def access (c : Cache) : Access → Cache
  | .get k => (c.get k).2
  | .put k e => c.put k e
  | .clear => c.clear

/-- The cache after a history of accesses. -/
def cacheAfter (cap : Nat) (h : List Access) : Cache := h.foldl access (Cache.new cap)

/-- A lookup of `k` would be answered. -/
def CacheHolds (c : Cache) (k : Str) : Prop := (c.get k).1.isSome = true

/-- How many accesses ago `k` was last accessed. -/
def age (h : List Access) (k : Str) : Nat := h.reverse.findIdx fun a => a.key? = some k

/-- The keys accessed in a history. -/
def accessed (h : List Access) : Finset Str := (h.filterMap Access.key?).toFinset

end Spec

open Spec

theorem cacheAfter_snoc (cap : Nat) (h : List Access) (a : Access) : cacheAfter cap (h ++ [a]) = access (cacheAfter cap h) a := by
  simp [cacheAfter]

theorem age_snoc (h : List Access) (a : Access) (k : Str) : age (h ++ [a]) k = if a.key? = some k then 0 else age h k + 1 := by
  simp only [age, List.reverse_append, List.reverse_cons, List.reverse_nil, List.nil_append, List.singleton_append, List.findIdx_cons]
  by_cases hk : a.key? = some k <;> simp [hk]

theorem find_isSome (k : Str) (items : List (Str × Entry)) : (find k items).isSome = true ↔ k ∈ items.map (·.1) := by
  induction items with
  | nil => simp [find]
  | cons p items ih =>
    obtain ⟨k', e⟩ := p
    by_cases h : k' = k
    · simp [find, h]
    · have : ¬ k = k' := fun h' => h h'.symm
      simp only [find, if_neg h, ih, List.map_cons, List.mem_cons, this, false_or]

theorem find_none (k : Str) (items : List (Str × Entry)) : find k items = none ↔ k ∉ items.map (·.1) := by
  rw [← find_isSome]; cases find k items <;> simp

theorem find_mem {k : Str} {items : List (Str × Entry)} {e : Entry} (h : find k items = some e) : (k, e) ∈ items := by
  induction items with
  | nil => simp [find] at h
  | cons p items ih =>
    obtain ⟨k', e'⟩ := p
    by_cases hk : k' = k
    · simp only [find, if_pos hk, Option.some.injEq] at h; subst hk; subst h; exact List.mem_cons_self
    · simp only [find, if_neg hk] at h; exact List.mem_cons_of_mem _ (ih h)

theorem holds_iff (c : Cache) (k : Str) : CacheHolds c k ↔ k ∈ c.items.map (·.1) := by
  rw [← find_isSome]
  unfold CacheHolds Cache.get
  cases find k c.items <;> simp

theorem without_keys (k : Str) (items : List (Str × Entry)) : (without k items).map (·.1) = (items.map (·.1)).filter (· ≠ k) := by
  unfold without
  rw [List.filter_map]
  rfl

/-- What is known of the cache after a history. -/
structure CacheGood (cap : Nat) (h : List Access) (items : List (Str × Entry)) : Prop where
  nodup : (items.map (·.1)).Nodup
  order : (items.map (·.1)).Pairwise fun k k' => age h k < age h k'
  bounded : items.length ≤ cap
  origin : ∀ k e, (k, e) ∈ items → ∃ a e0 b, h = a ++ .put k e0 :: b ∧ (∀ x ∈ b, x ≠ .clear ∧ ∀ e', x ≠ .put k e') ∧
    e.result = e0.result ∧ e.context = e0.context ∧ e.hitCount = e0.hitCount + (b.filter fun x => x.key? = some k).length

theorem cacheAfter_cap (cap : Nat) (h : List Access) : (cacheAfter cap h).cap = cap := by
  induction h using List.reverseRecOn with
  | nil => rfl
  | append_singleton h x ih =>
    rw [cacheAfter_snoc]
    cases x with
    | get k => simp only [access, Cache.get]; split <;> exact ih
    | put k e => exact ih
    | clear => exact ih

theorem get_items_some {c : Cache} {k : Str} {e : Entry} (h : find k c.items = some e) :
    (c.get k).2.items = (k, { e with hitCount := e.hitCount + 1 }) :: without k c.items := by simp only [Cache.get, h]

theorem get_items_none {c : Cache} {k : Str} (h : find k c.items = none) : (c.get k).2.items = c.items := by simp only [Cache.get, h]

theorem put_items_some {c : Cache} {k : Str} {old : Entry} (e : Entry) (h : find k c.items = some old) : (c.put k e).items = (k, e) :: without k c.items := by
  simp only [Cache.put, lruPut, h]

theorem put_items_none {c : Cache} {k : Str} (e : Entry) (h : find k c.items = none) :
    (c.put k e).items = (k, e) :: if c.items.length = c.cap then c.items.dropLast else c.items := by
  simp only [Cache.put, lruPut, h]

theorem length_without {k : Str} {items : List (Str × Entry)} (hn : (items.map (·.1)).Nodup) (hk : k ∈ items.map (·.1)) :
    (without k items).length + 1 = items.length := by
  induction items with
  | nil => simp at hk
  | cons p items ih =>
    simp only [List.map_cons, List.nodup_cons] at hn
    by_cases hp : p.1 = k
    · have : without k items = items := by
        unfold without
        rw [List.filter_eq_self]
        rintro q hq
        simp only [ne_eq, decide_not, Bool.not_eq_true', decide_eq_false_iff_not]
        rintro rfl
        exact hn.1 (by rw [hp]; exact List.mem_map.2 ⟨q, hq, rfl⟩)
      have e : without k (p :: items) = without k items := by simp [without, hp]
      rw [e, this]; rfl
    · have e : without k (p :: items) = p :: without k items := by simp [without, hp]
      rw [e]
      have hk' : k ∈ items.map (·.1) := by
        rcases List.mem_cons.1 hk with h | h
        · exact absurd h.symm hp
        · exact h
      simp only [List.length_cons, ih hn.2 hk']

theorem order_step {h : List Access} {a : Access} {k : Str} (ha : a.key? = some k) {ks : List Str} (hk : k ∉ ks)
    (ho : ks.Pairwise fun k k' => age h k < age h k') : (k :: ks).Pairwise fun k k' => age (h ++ [a]) k < age (h ++ [a]) k' := by
  have ne : ∀ x ∈ ks, ¬ k = x := by rintro x hx rfl; exact hk hx
  refine List.Pairwise.cons ?_ ?_
  · intro x hx
    rw [age_snoc, age_snoc, ha, if_pos rfl, if_neg (by simpa using ne x hx)]
    omega
  · refine ho.imp_of_mem ?_
    intro x y hx hy hxy
    rw [age_snoc, age_snoc, ha, if_neg (by simpa using ne x hx), if_neg (by simpa using ne y hy)]
    omega

theorem origin_keep {h : List Access} {x : Access} {k : Str} {e : Entry} (hx : x.key? ≠ some k) (hc : x ≠ .clear)
    (ho : ∃ a e0 b, h = a ++ .put k e0 :: b ∧ (∀ x ∈ b, x ≠ .clear ∧ ∀ e', x ≠ .put k e') ∧
      e.result = e0.result ∧ e.context = e0.context ∧ e.hitCount = e0.hitCount + (b.filter fun x => x.key? = some k).length) :
    ∃ a e0 b, h ++ [x] = a ++ .put k e0 :: b ∧ (∀ x ∈ b, x ≠ .clear ∧ ∀ e', x ≠ .put k e') ∧
      e.result = e0.result ∧ e.context = e0.context ∧ e.hitCount = e0.hitCount + (b.filter fun x => x.key? = some k).length := by
  obtain ⟨a, e0, b, rfl, hb, h1, h2, h3⟩ := ho
  refine ⟨a, e0, b ++ [x], by simp, ?_, h1, h2, ?_⟩
  · intro y hy
    rcases List.mem_append.1 hy with hy | hy
    · exact hb y hy
    · rw [List.mem_singleton.1 hy]
      refine ⟨hc, ?_⟩
      rintro e' rfl
      exact hx rfl
  · rw [List.filter_append, List.length_append, h3]
    simp [hx]

theorem cacheGood (cap : Nat) (hcap : 0 < cap) (h : List Access) : CacheGood cap h (cacheAfter cap h).items := by
  induction h using List.reverseRecOn with
  | nil => exact ⟨List.nodup_nil, List.Pairwise.nil, Nat.zero_le _, fun k e he => by simp [cacheAfter, Cache.new] at he⟩
  | append_singleton h x ih =>
    rw [cacheAfter_snoc]
    have h1 := cacheAfter_cap cap h
    generalize cacheAfter cap h = c at ih h1
    obtain ⟨h2, h3, h4, h5⟩ := ih
    have hnotin : ∀ k, k ∉ (without k c.items).map (·.1) := by intro k; rw [without_keys]; simp
    have hsub : ∀ k, ((without k c.items).map (·.1)).Sublist (c.items.map (·.1)) := by
      intro k; rw [without_keys]; exact List.filter_sublist
    cases x with
    | clear =>
      refine ⟨List.nodup_nil, List.Pairwise.nil, Nat.zero_le _, ?_⟩
      intro k e he
      simp [access, Cache.clear, Cache.new] at he
    | get k =>
      simp only [access]
      cases hf : find k c.items with
      | none =>
        rw [get_items_none hf]
        have hk : k ∉ c.items.map (·.1) := (find_none _ _).1 hf
        refine ⟨h2, ?_, h4, ?_⟩
        · have := order_step (a := .get k) rfl hk h3
          exact (List.pairwise_cons.1 this).2
        · intro k' e he
          refine origin_keep ?_ (by simp) (h5 k' e he)
          rintro h
          have : k = k' := by simpa [Access.key?] using h
          subst this
          exact hk (List.mem_map.2 ⟨_, he, rfl⟩)
      | some e =>
        rw [get_items_some hf]
        have hk : k ∈ c.items.map (·.1) := by rw [← find_isSome, hf]; rfl
        refine ⟨?_, ?_, ?_, ?_⟩
        · simp only [List.map_cons]
          exact List.nodup_cons.2 ⟨hnotin k, (hsub k).nodup h2⟩
        · simp only [List.map_cons]
          exact order_step (a := .get k) rfl (hnotin k) (h3.sublist (hsub k))
        · have := length_without h2 hk
          simp only [List.length_cons]
          omega
        · intro k' e' he'
          rcases List.mem_cons.1 he' with he' | he'
          · simp only [Prod.mk.injEq] at he'
            obtain ⟨rfl, rfl⟩ := he'
            obtain ⟨a, e0, b, rfl, hb, g1, g2, g3⟩ := h5 k' e (find_mem hf)
            refine ⟨a, e0, b ++ [.get k'], by simp, ?_, g1, g2, ?_⟩
            · intro y hy
              rcases List.mem_append.1 hy with hy | hy
              · exact hb y hy
              · rw [List.mem_singleton.1 hy]; simp
            · rw [List.filter_append, List.length_append]
              have : ((([Access.get k'] : List Access).filter fun x => x.key? = some k')).length = 1 := by simp [Access.key?]
              rw [this]
              simp only [g3]
              omega
          · have hm := List.mem_filter.1 he'
            have hne : k' ≠ k := by simpa using hm.2
            exact origin_keep (by simpa [Access.key?] using fun h => hne h.symm) (by simp) (h5 k' e' hm.1)
    | put k e =>
      simp only [access]
      cases hf : find k c.items with
      | some old =>
        rw [put_items_some e hf]
        have hk : k ∈ c.items.map (·.1) := by rw [← find_isSome, hf]; rfl
        refine ⟨?_, ?_, ?_, ?_⟩
        · simp only [List.map_cons]
          exact List.nodup_cons.2 ⟨hnotin k, (hsub k).nodup h2⟩
        · simp only [List.map_cons]
          exact order_step (a := .put k e) rfl (hnotin k) (h3.sublist (hsub k))
        · have := length_without h2 hk
          simp only [List.length_cons]
          omega
        · intro k' e' he'
          rcases List.mem_cons.1 he' with he' | he'
          · simp only [Prod.mk.injEq] at he'
            obtain ⟨rfl, rfl⟩ := he'
            exact ⟨h, e', [], by simp, by simp, rfl, rfl, by simp⟩
          · have hm := List.mem_filter.1 he'
            have hne : k' ≠ k := by simpa using hm.2
            exact origin_keep (by simpa [Access.key?] using fun h => hne h.symm) (by simp) (h5 k' e' hm.1)
      | none =>
        rw [put_items_none e hf]
        have hk : k ∉ c.items.map (·.1) := (find_none _ _).1 hf
        have hkeep : ∃ l : List (Str × Entry), (if c.items.length = c.cap then c.items.dropLast else c.items) = l ∧ l.Sublist c.items ∧ l.length + 1 ≤ cap := by
          refine ⟨_, rfl, ?_, ?_⟩
          · split
            · exact List.dropLast_sublist _
            · exact List.Sublist.refl _
          · split
            · rw [List.length_dropLast]; omega
            · omega
        obtain ⟨l, hl, hls, hll⟩ := hkeep
        rw [hl]
        have hkl : k ∉ l.map (·.1) := fun hm => hk ((hls.map _).subset hm)
        refine ⟨?_, ?_, ?_, ?_⟩
        · simp only [List.map_cons]
          exact List.nodup_cons.2 ⟨hkl, (hls.map _).nodup h2⟩
        · simp only [List.map_cons]
          exact order_step (a := .put k e) rfl hkl (h3.sublist (hls.map _))
        · simpa using hll
        · intro k' e' he'
          rcases List.mem_cons.1 he' with he' | he'
          · simp only [Prod.mk.injEq] at he'
            obtain ⟨rfl, rfl⟩ := he'
            exact ⟨h, e', [], by simp, by simp, rfl, rfl, by simp⟩
          · refine origin_keep ?_ (by simp) (h5 k' e' (hls.subset he'))
            rintro h
            have : k = k' := by simpa [Access.key?] using h
            subst this
            exact hkl (List.mem_map.2 ⟨_, he', rfl⟩)

/-- **C51.** The cache never holds more entries than its capacity, and never two for one key. -/
theorem C51_bounded (cap : Nat) (hcap : 0 < cap) (h : List Access) :
    (cacheAfter cap h).items.length ≤ cap ∧ ((cacheAfter cap h).items.map (·.1)).Nodup :=
  ⟨(cacheGood cap hcap h).bounded, (cacheGood cap hcap h).nodup⟩

/-- **C51.** What a lookup answers is what was last put under the key, with no clear since. -/
theorem C51_last_put (cap : Nat) (hcap : 0 < cap) (h : List Access) (k : Str) (e : Entry) (hg : ((cacheAfter cap h).get k).1 = some e) :
    ∃ before e0 after, h = before ++ .put k e0 :: after ∧ (∀ x ∈ after, x ≠ .clear ∧ ∀ e', x ≠ .put k e') ∧ e.result = e0.result ∧ e.context = e0.context := by
  unfold Cache.get at hg
  cases hf : find k (cacheAfter cap h).items with
  | none => simp [hf] at hg
  | some e1 =>
    simp only [hf, Option.some.injEq] at hg
    obtain ⟨a, e0, b, h1, h2, h3, h4, _⟩ := (cacheGood cap hcap h).origin k e1 (find_mem hf)
    exact ⟨a, e0, b, h1, h2, by rw [← hg]; exact h3, by rw [← hg]; exact h4⟩

/-- The hypotheses of `C51_last_put`: what is found under a key that was stored twice. -/
example (e e' : Entry) := C51_last_put 2 (by decide) [.put c!"a" e, .put c!"a" e', .get c!"a"] c!"a" _ rfl

/-- **C51.** Putting a key that is not held into a cache that is not full drops nothing; into a full one it drops exactly the entry that was accessed longest ago. -/
theorem C51_eviction (cap : Nat) (hcap : 0 < cap) (h : List Access) (k : Str) (e : Entry) (hk : ¬ CacheHolds (cacheAfter cap h) k) :
    ((cacheAfter cap h).items.length < cap → ∀ k', CacheHolds (cacheAfter cap (h ++ [.put k e])) k' ↔ k' = k ∨ CacheHolds (cacheAfter cap h) k') ∧
    ((cacheAfter cap h).items.length = cap → ∃ oldest, CacheHolds (cacheAfter cap h) oldest ∧
      (∀ k', CacheHolds (cacheAfter cap h) k' → k' ≠ oldest → age h k' < age h oldest) ∧
      ∀ k', CacheHolds (cacheAfter cap (h ++ [.put k e])) k' ↔ k' = k ∨ (CacheHolds (cacheAfter cap h) k' ∧ k' ≠ oldest)) := by
  obtain ⟨h2, h3, h4, _⟩ := cacheGood cap hcap h
  have h1 := cacheAfter_cap cap h
  rw [cacheAfter_snoc]
  simp only [holds_iff] at hk ⊢
  generalize cacheAfter cap h = c at *
  have hf : find k c.items = none := (find_none _ _).2 hk
  simp only [access, put_items_none e hf]
  constructor
  · intro hl k'
    rw [if_neg (by omega)]
    simp
  · intro hl
    rw [if_pos (by omega)]
    have hne : c.items ≠ [] := by rintro h; rw [h] at hl; simp at hl; omega
    obtain ⟨init, last, hil⟩ : ∃ init last, c.items = init ++ [last] := ⟨c.items.dropLast, c.items.getLast hne, (List.dropLast_append_getLast hne).symm⟩
    rw [hil] at h2 h3 ⊢
    simp only [List.map_append, List.map_cons, List.map_nil] at h2 h3 ⊢
    refine ⟨last.1, by simp, ?_, ?_⟩
    · intro k' hk' hne'
      have hmem : k' ∈ init.map (·.1) := by
        rcases List.mem_append.1 hk' with h | h
        · exact h
        · exact absurd (List.mem_singleton.1 h) hne'
      exact (List.pairwise_append.1 h3).2.2 k' hmem last.1 (by simp)
    · intro k'
      have hnl : last.1 ∉ init.map (·.1) := by
        intro hm
        exact (List.nodup_append.1 h2).2.2 last.1 hm last.1 (by simp) rfl
      simp only [List.dropLast_concat, List.mem_cons, List.mem_append, List.not_mem_nil, or_false]
      constructor
      · rintro (rfl | hm)
        · exact .inl rfl
        · exact .inr ⟨.inl hm, by rintro rfl; exact hnl hm⟩
      · rintro (rfl | ⟨hm | rfl, hn⟩)
        · exact .inl rfl
        · exact .inr hm
        · exact absurd rfl hn

/-- The hypotheses of `C51_eviction`: a full cache and a new key. -/
example (e e' : Entry) := (C51_eviction 2 (by decide) [.put c!"a" e, .put c!"b" e', .get c!"a"] c!"c" e (by intro h; exact Bool.false_ne_true h)).2 rfl

theorem age_le {a b : List Access} {x : Access} {k : Str} (hx : x.key? = some k) : age (a ++ x :: b) k ≤ b.length := by
  simp only [age, List.reverse_append, List.reverse_cons, List.append_assoc, List.singleton_append]
  rw [List.findIdx_append]
  split
  · rename_i hlt; simp at hlt ⊢; omega
  · rw [List.findIdx_cons]; simp [hx]

theorem accessed_of_age {a b : List Access} {k : Str} (h : age (a ++ b) k < b.length) : k ∈ accessed b := by
  simp only [age, List.reverse_append, List.findIdx_append] at h
  split at h
  · rename_i hlt
    have := List.findIdx_lt_length.1 hlt
    obtain ⟨y, hy, hk⟩ := this
    simp only [accessed, List.mem_toFinset, List.mem_filterMap]
    exact ⟨y, by simpa using hy, by simpa using hk⟩
  · simp at h; omega

/-- **C51.** An entry that is held stays as long as fewer than `cap` other keys are accessed after it was last accessed, and the cache is not cleared. -/
theorem C51_kept (cap : Nat) (hcap : 0 < cap) (h : List Access) (x : Access) (since : List Access) (k : Str) (hx : x.key? = some k)
    (hh : CacheHolds (cacheAfter cap (h ++ [x])) k) (hc : ∀ y ∈ since, y ≠ .clear) (hn : ((accessed since).erase k).card < cap) :
    CacheHolds (cacheAfter cap (h ++ x :: since)) k := by
  induction since using List.reverseRecOn with
  | nil => exact hh
  | append_singleton since y ih =>
    have hsub : accessed since ⊆ accessed (since ++ [y]) := by
      intro z hz
      simp only [accessed, List.filterMap_append, List.toFinset_append, Finset.mem_union] at hz ⊢
      exact .inl hz
    have hi := ih (fun y hy => hc y (by simp [hy])) (lt_of_le_of_lt (Finset.card_le_card (Finset.erase_subset_erase k hsub)) hn)
    have hc' : y ≠ .clear := hc y (by simp)
    have e : h ++ x :: (since ++ [y]) = (h ++ x :: since) ++ [y] := by simp
    rw [e]
    cases y with
    | clear => exact absurd rfl hc'
    | get k' =>
      rw [cacheAfter_snoc]
      rw [holds_iff] at hi ⊢
      simp only [access, Cache.get]
      split
      · by_cases hk : k = k'
        · simp [hk]
        · simp only [List.map_cons, List.mem_cons, without_keys, List.mem_filter]
          exact .inr ⟨hi, by simpa using hk⟩
      · exact hi
    | put k' v =>
      by_cases hk : CacheHolds (cacheAfter cap (h ++ x :: since)) k'
      · rw [cacheAfter_snoc]
        rw [holds_iff] at hi hk ⊢
        simp only [access, Cache.put, lruPut]
        split
        · by_cases hk : k = k'
          · simp [hk]
          · simp only [List.map_cons, List.mem_cons, without_keys, List.mem_filter]
            exact .inr ⟨hi, by simpa using hk⟩
        · rename_i hf
          exact absurd hk ((find_none _ _).1 hf)
      · obtain ⟨g1, g2⟩ := C51_eviction cap hcap (h ++ x :: since) k' v hk
        have good := cacheGood cap hcap (h ++ x :: since)
        rcases Nat.lt_or_eq_of_le good.bounded with hl | hl
        · exact (g1 hl k).2 (.inr hi)
        · obtain ⟨oldest, o1, o2, o3⟩ := g2 hl
          refine (o3 k).2 (.inr ⟨hi, ?_⟩)
          rintro rfl
          -- everything else in the cache was accessed since, and so was the new key
          have hall : insert k' ((cacheAfter cap (h ++ x :: since)).items.map (·.1)).toFinset ⊆ insert k ((accessed (since ++ [.put k' v]))) := by
            intro z hz
            rw [Finset.mem_insert, List.mem_toFinset] at hz
            rw [Finset.mem_insert]
            rcases hz with rfl | hz
            · right; simp [accessed, Access.key?]
            · by_cases hzk : z = k
              · exact .inl hzk
              · right
                apply hsub
                have h1 := o2 z ((holds_iff _ _).2 hz) hzk
                have h2 : age (h ++ x :: since) k ≤ since.length := age_le hx
                have h3 : age ((h ++ [x]) ++ since) z < since.length := by simp; omega
                exact accessed_of_age h3
          have hcard := Finset.card_le_card hall
          rw [Finset.card_insert_of_notMem (by rw [List.mem_toFinset, ← holds_iff]; exact hk), List.toFinset_card_of_nodup good.nodup, List.length_map, hl] at hcard
          have : (insert k (accessed (since ++ [.put k' v]))).card ≤ ((accessed (since ++ [.put k' v])).erase k).card + 1 := by
            have hs : insert k (accessed (since ++ [.put k' v])) ⊆ insert k ((accessed (since ++ [.put k' v])).erase k) := by
              intro z hz
              simp only [Finset.mem_erase, Finset.mem_insert] at hz ⊢
              by_cases hzk : z = k
              · exact .inl hzk
              · exact .inr ⟨hzk, hz.resolve_left hzk⟩
            exact le_trans (Finset.card_le_card hs) (Finset.card_insert_le _ _)
          omega

/-- The hypotheses of `C51_kept`: one other key was accessed since, in a cache for two. -/
example (e e' : Entry) : CacheHolds (cacheAfter 2 ([.put c!"a" e] ++ .get c!"a" :: [.put c!"b" e', .get c!"b", .put c!"b" e])) c!"a" :=
  C51_kept 2 (by decide) [.put c!"a" e] (.get c!"a") [.put c!"b" e', .get c!"b", .put c!"b" e] c!"a" rfl rfl (by simp) (by
    have : accessed [.put c!"b" e', .get c!"b", .put c!"b" e] = {c!"b"} := rfl
    rw [this]; decide)

/-! ### C52 -/

namespace Spec

/-- Is it a clear? -/
def Access.isClear : Access → Bool
  | .clear => true
  | _ => false

/-- Is it a lookup? -/
def Access.isGet : Access → Bool
  | .get _ => true
  | _ => false

/-- The accesses since the last clear. -/
def sinceClear (h : List Access) : List Access := (h.reverse.takeWhile (! ·.isClear)).reverse

/-- How many lookups there are. -/
def lookups (h : List Access) : Nat := (h.filter (·.isGet)).length

end Spec

theorem sinceClear_snoc (h : List Access) (a : Access) : sinceClear (h ++ [a]) = if a.isClear then [] else sinceClear h ++ [a] := by
  simp only [sinceClear, List.reverse_append, List.reverse_cons, List.reverse_nil, List.nil_append, List.singleton_append, List.takeWhile_cons]
  cases a <;> simp [Access.isClear]

/-- **C52.** Since the last clear, hits and misses together count the lookups. -/
theorem C52_lookups (cap : Nat) (h : List Access) :
    (cacheAfter cap h).stats.hits + (cacheAfter cap h).stats.misses = lookups (sinceClear h) := by
  induction h using List.reverseRecOn with
  | nil => rfl
  | append_singleton h a ih =>
    rw [cacheAfter_snoc, sinceClear_snoc]
    cases a with
    | clear => rfl
    | get k =>
      simp only [access, Cache.get]
      simp only [lookups, Access.isClear, Access.isGet, Bool.false_eq_true, if_false, List.filter_append, List.length_append, List.filter_cons, List.filter_nil, if_true,
        List.length_singleton] at ih ⊢
      split <;> simp <;> omega
    | put k e =>
      simp only [access, Cache.put]
      simp only [lookups, Access.isClear, Access.isGet, Bool.false_eq_true, if_false, List.filter_append, List.length_append, List.filter_cons, List.filter_nil,
        List.length_nil] at ih ⊢
      omega

/-- **C52.** A lookup counts as a hit exactly if it is answered. -/
theorem C52_hits (cap : Nat) (h : List Access) (k : Str) :
    (CacheHolds (cacheAfter cap h) k → (cacheAfter cap (h ++ [.get k])).stats.hits = (cacheAfter cap h).stats.hits + 1) ∧
    (¬ CacheHolds (cacheAfter cap h) k → (cacheAfter cap (h ++ [.get k])).stats.misses = (cacheAfter cap h).stats.misses + 1) := by
  rw [cacheAfter_snoc, holds_iff, ← find_isSome]
  simp only [access, Cache.get]
  cases find k (cacheAfter cap h).items <;> simp

/-- **C52.** The eviction counter is wrong both ways: it stays at 0 when an entry is dropped for capacity, and counts when an entry is merely replaced. -/
theorem C52_evictions_wrong (e : Entry) :
    (CacheHolds (cacheAfter 1 [.put c!"a" e]) c!"a" ∧ ¬ CacheHolds (cacheAfter 1 [.put c!"a" e, .put c!"b" e]) c!"a" ∧
      (cacheAfter 1 [.put c!"a" e, .put c!"b" e]).stats.evictions = 0) ∧
    (cacheAfter 1000 [.put c!"a" e, .put c!"a" e]).stats.evictions = 1 := by
  refine ⟨⟨rfl, ?_, rfl⟩, rfl⟩
  intro h
  exact Bool.false_ne_true h

/-- **C52.** The number of entries reported is right at all times. -/
theorem C52_entries (cap : Nat) (hcap : 0 < cap) (h : List Access) : (cacheAfter cap h).stats.entries = (cacheAfter cap h).items.length := by
  induction h using List.reverseRecOn with
  | nil => rfl
  | append_singleton h a ih =>
    rw [cacheAfter_snoc]
    cases a with
    | clear => rfl
    | put k e => rfl
    | get k =>
      simp only [access]
      cases hf : find k (cacheAfter cap h).items with
      | none => rw [get_items_none hf, ← ih]; simp only [Cache.get, hf]
      | some e =>
        rw [get_items_some hf, List.length_cons, length_without (cacheGood cap hcap h).nodup (by rw [← find_isSome, hf]; rfl), ← ih]
        simp only [Cache.get, hf]

example (e e' : Entry) : CacheHolds (cacheAfter 2 [.put c!"a" e, .put c!"b" e', .get c!"a", .put c!"c" e]) c!"a" ∧
    ¬ CacheHolds (cacheAfter 2 [.put c!"a" e, .put c!"b" e', .get c!"a", .put c!"c" e]) c!"b" := by
  refine ⟨rfl, ?_⟩
  intro h
  exact Bool.false_ne_true h
