import Verif.Model.TimedCache
import Verif.Props.Cache
import Verif.Props.Monotone
import Verif.Base.KernelRfl
/-! C144: the time saved by the evaluation cache. -/

open HttpCache Spec

namespace Spec

/-- In the history an evaluation for the key `k` gave the result and took the time `t`. -/
def Took (s : Timed) (h : List (Event × F64)) (k : Str) (v : Value) (ctx : Option Env) (t : F64) : Prop :=
  ∃ h1 r h2, h = h1 ++ (.request r, t) :: h2 ∧
    let now := s.server.after (h1.map (·.1))
    r.key now.X = k ∧ fresh now.X now.reg r = .ok (v, ctx)

/-- A time as a clock gives it. -/
def IsTime (t : F64) : Prop := IsDouble t ∧ AtMost (.zero false) t

end Spec

namespace HttpCache

theorem Timed.after_snoc (s : Timed) (h : List (Event × F64)) (e : Event) (ms : F64) : s.after (h ++ [(e, ms)]) = (s.after h).step e ms := by
  unfold Timed.after; rw [List.foldl_append]; rfl

theorem Timed.step_server (s : Timed) (e : Event) (ms : F64) : (s.step e ms).server = s.server.step e := by
  unfold Timed.step
  split
  · split
    · rfl
    · split <;> rfl
  · split <;> rfl
  · rfl
  · rfl

theorem Timed.after_server (s : Timed) (h : List (Event × F64)) : (s.after h).server = s.server.after (h.map (·.1)) := by
  induction h generalizing s with
  | nil => rfl
  | cons p h ih =>
    show ((s.step p.1 p.2).after h).server = (s.server.step p.1).after (h.map (·.1))
    rw [ih, Timed.step_server]

theorem took_more {s : Timed} {h : List (Event × F64)} {k : Str} {v : Value} {ctx : Option Env} {t : F64} (p : Event × F64) (ht : Took s h k v ctx t) : Took s (h ++ [p]) k v ctx t := by
  obtain ⟨h1, r, h2, rfl, e⟩ := ht
  exact ⟨h1, r, h2 ++ [p], by simp, e⟩

/-- What is in the cache, and what waits to be stored, was evaluated in the time kept with it. -/
structure Timed.Good (s : Timed) (h : List (Event × F64)) : Prop where
  items : ∀ p ∈ (s.after h).server.cache.items, Took s h p.1 p.2.result p.2.context ((s.after h).times p.1)
  waiting : List.Forall₂ (fun p t => Took s h p.1 p.2.result p.2.context t) (s.after h).server.pending (s.after h).pendingTimes

theorem forall₂_eraseIdx {α β : Type} {R : α → β → Prop} {l : List α} {m : List β} (h : List.Forall₂ R l m) (i : Nat) : List.Forall₂ R (l.eraseIdx i) (m.eraseIdx i) := by
  induction h generalizing i with
  | nil => exact .nil
  | cons a b ih =>
    cases i with
    | zero => exact b
    | succ i => exact .cons a (ih i)

theorem forall₂_get {α β : Type} {R : α → β → Prop} {l : List α} {m : List β} (h : List.Forall₂ R l m) (i : Nat) :
    (l[i]? = none ∧ m[i]? = none) ∨ ∃ a b, l[i]? = some a ∧ m[i]? = some b ∧ R a b := by
  induction h generalizing i with
  | nil => exact .inl ⟨rfl, rfl⟩
  | cons a b ih =>
    cases i with
    | zero => exact .inr ⟨_, _, rfl, rfl, a⟩
    | succ i => simpa using ih i

theorem Timed.good (X : Ext) (reg : Registry) (cap : Nat) (h : List (Event × F64)) : (Timed.start X reg cap).Good h := by
  induction h using List.reverseRecOn with
  | nil => exact Timed.Good.mk (fun p hp => absurd hp List.not_mem_nil) .nil
  | append_singleton h p ih =>
    obtain ⟨e, ms⟩ := p
    obtain ⟨i1, i2⟩ := ih
    have i1 : ∀ p ∈ ((Timed.start X reg cap).after h).server.cache.items, Took (Timed.start X reg cap) (h ++ [(e, ms)]) p.1 p.2.result p.2.context (((Timed.start X reg cap).after h).times p.1) :=
      fun p hp => took_more _ (i1 p hp)
    have i2 : List.Forall₂ (fun p t => Took (Timed.start X reg cap) (h ++ [(e, ms)]) p.1 p.2.result p.2.context t) ((Timed.start X reg cap).after h).server.pending ((Timed.start X reg cap).after h).pendingTimes :=
      i2.imp fun _ _ hp => took_more _ hp
    have hsrv := Timed.after_server (Timed.start X reg cap) h
    constructor
    · rw [Timed.after_snoc]
      generalize hs : (Timed.start X reg cap).after h = s at *
      intro p hp
      cases e with
      | request r =>
        simp only [Timed.step, Server.step, Server.ask] at hp ⊢
        cases hf : find (r.key s.server.X) s.server.cache.items with
        | some en =>
          simp only [Cache.get, hf] at hp ⊢
          rcases List.mem_cons.1 hp with rfl | hp
          · exact i1 (_, en) (find_mem hf)
          · exact i1 p (List.mem_filter.1 hp).1
        | none =>
          simp only [Cache.get, hf] at hp ⊢
          cases hfr : fresh s.server.X s.server.reg r with
          | ok o => rw [hfr] at hp; exact i1 p hp
          | error f => rw [hfr] at hp; exact i1 p hp
      | store i =>
        simp only [Timed.step, Server.step] at hp ⊢
        rcases forall₂_get i2 i with ⟨a, b⟩ | ⟨⟨k, en⟩, t, a, b, ht⟩
        · rw [a] at hp ⊢
          exact i1 p hp
        · rw [a] at hp ⊢
          rw [b] at hp ⊢
          dsimp only at hp ⊢
          have other : p ∈ s.server.cache.items → p.1 ≠ k → Took (Timed.start X reg cap) (h ++ [(.store i, ms)]) p.1 p.2.result p.2.context (if p.1 = k then t else s.times p.1) := by
            intro h1 h2
            rw [if_neg h2]
            exact i1 p h1
          cases hf : find k s.server.cache.items with
          | some old =>
            rw [put_items_some en hf] at hp
            rcases List.mem_cons.1 hp with rfl | hp
            · rw [if_pos rfl]; exact ht
            · have := List.mem_filter.1 hp
              exact other this.1 (by simpa using this.2)
          | none =>
            rw [put_items_none en hf] at hp
            have hn := (find_none k _).1 hf
            rcases List.mem_cons.1 hp with rfl | hp
            · rw [if_pos rfl]; exact ht
            · have hm : p ∈ s.server.cache.items := by
                split at hp
                · exact List.dropLast_subset _ hp
                · exact hp
              exact other hm fun hk => hn (hk ▸ List.mem_map_of_mem hm)
      | clock a b c => exact i1 p hp
      | registry r => exact i1 p hp
      | clear => cases hp
    · rw [Timed.after_snoc]
      cases e with
      | request r =>
        have new : ∀ v ctx, fresh ((Timed.start X reg cap).after h).server.X ((Timed.start X reg cap).after h).server.reg r = .ok (v, ctx) →
            Took (Timed.start X reg cap) (h ++ [(.request r, ms)]) (r.key ((Timed.start X reg cap).after h).server.X) v ctx ms := by
          intro v ctx hv
          rw [hsrv] at hv ⊢
          exact ⟨h, r, [], rfl, rfl, hv⟩
        generalize (Timed.start X reg cap).after h = s at *
        simp only [Timed.step, Server.step, Server.ask]
        cases hf : find (r.key s.server.X) s.server.cache.items with
        | some en =>
          simp only [Cache.get, hf]
          exact i2
        | none =>
          simp only [Cache.get, hf]
          cases hfr : fresh s.server.X s.server.reg r with
          | ok o =>
            obtain ⟨v, ctx⟩ := o
            exact List.rel_append i2 (.cons (new v ctx hfr) .nil)
          | error f => exact i2
      | store i =>
        generalize (Timed.start X reg cap).after h = s at *
        simp only [Timed.step, Server.step]
        rcases forall₂_get i2 i with ⟨a, b⟩ | ⟨⟨k, en⟩, t, a, b, ht⟩
        · rw [a]
          exact i2
        · rw [a, b]
          exact forall₂_eraseIdx i2 i
      | clock a b c => exact i2
      | registry r => exact i2
      | clear => exact i2

/-- **C144.** The times are kept beside the server that C51 and C52 are about. -/
theorem C144_same (s : Timed) (h : List (Event × F64)) : (s.after h).server = s.server.after (h.map (·.1)) := Timed.after_server s h

/-- **C144.** A request that is answered from the cache adds to the time saved the time that the evaluation took whose result it gives. -/
theorem C144_hit (X : Ext) (reg : Registry) (cap : Nat) (h : List (Event × F64)) (r : Request) (ms : F64) (e : Entry) :
    let s := (Timed.start X reg cap).after h
    (s.server.cache.get (r.key s.server.X)).1 = some e →
    ∃ t, Took (Timed.start X reg cap) h (r.key s.server.X) e.result e.context t ∧ (s.step (.request r) ms).saved = F64.add s.saved t := by
  intro s he
  have hg := (Timed.good X reg cap h).items
  cases hf : find (r.key s.server.X) s.server.cache.items with
  | none => simp [Cache.get, hf] at he
  | some en =>
    simp only [Cache.get, hf, Option.some.injEq] at he
    subst he
    refine ⟨s.times (r.key s.server.X), hg _ (find_mem hf), ?_⟩
    simp only [Timed.step, Cache.get, hf]

/-- **C144.** Clearing the cache sets it to zero; nothing else than hits and clearing changes it. -/
theorem C144_else (s : Timed) (e : Event) (ms : F64) :
    (e = .clear → (s.step e ms).saved = .zero false) ∧
    (e ≠ .clear → (∀ r, e = .request r → (s.server.cache.get (r.key s.server.X)).1 = none) → (s.step e ms).saved = s.saved) := by
  refine ⟨by rintro rfl; rfl, fun h1 h2 => ?_⟩
  cases e with
  | request r =>
    have := h2 r rfl
    simp only [Timed.step]
    cases hg : s.server.cache.get (r.key s.server.X) with
    | mk a b =>
      rw [hg] at this
      dsimp only at this
      subst this
      dsimp only
      cases fresh s.server.X s.server.reg r <;> rfl
  | store i => simp only [Timed.step]; split <;> rfl
  | clock a b c => rfl
  | registry r => rfl
  | clear => exact absurd rfl h1

/-- **C144.** The time saved is the sum, as floats add up, of as many times as there were hits since the cache was last cleared, each the time of a request of the history. -/
theorem C144_sum (X : Ext) (reg : Registry) (cap : Nat) (h : List (Event × F64)) :
    let s := (Timed.start X reg cap).after h
    ∃ ts : List F64, ts.length = s.server.cache.stats.hits ∧ s.saved = ts.foldl F64.add (.zero false) ∧ ∀ t ∈ ts, ∃ r, (.request r, t) ∈ h := by
  induction h using List.reverseRecOn with
  | nil => exact ⟨[], rfl, rfl, by simp⟩
  | append_singleton h p ih =>
    obtain ⟨e, ms⟩ := p
    obtain ⟨ts, i1, i2, i3⟩ := ih
    have i3 : ∀ t ∈ ts, ∃ r, (Event.request r, t) ∈ h ++ [(e, ms)] := fun t ht => by
      obtain ⟨r, hr⟩ := i3 t ht
      exact ⟨r, by simp [hr]⟩
    have hhit := fun r => C144_hit X reg cap h r ms
    rw [Timed.after_snoc]
    dsimp only at hhit ⊢
    generalize (Timed.start X reg cap).after h = s at *
    rw [Timed.step_server]
    cases e with
    | request r =>
      cases hf : find (r.key s.server.X) s.server.cache.items with
      | some en =>
        obtain ⟨t, ⟨h1, r', h2, rfl, -⟩, ht⟩ := hhit r { en with hitCount := en.hitCount + 1 } (by simp only [Cache.get, hf])
        refine ⟨ts ++ [t], ?_, ?_, ?_⟩
        · simp [Server.step, Server.ask, Cache.get, hf, i1]
        · rw [ht, i2, List.foldl_append]; rfl
        · intro t' ht'
          rcases List.mem_append.1 ht' with ht' | ht'
          · exact i3 t' ht'
          · cases List.mem_singleton.1 ht'
            exact ⟨r', by simp⟩
      | none =>
        refine ⟨ts, ?_, ?_, i3⟩
        · simp only [Server.step, Server.ask, Cache.get, hf]
          cases fresh s.server.X s.server.reg r <;> exact i1
        · rw [(C144_else s (.request r) ms).2 (by simp) (by rintro r' hr; cases hr; simp [Cache.get, hf]), i2]
    | store i =>
      refine ⟨ts, ?_, ?_, i3⟩
      · simp only [Server.step]
        split
        · exact i1
        · exact i1
      · rw [(C144_else s (.store i) ms).2 (by simp) (by simp), i2]
    | clock a b c => exact ⟨ts, i1, i2, i3⟩
    | registry r => exact ⟨ts, i1, i2, i3⟩
    | clear => exact ⟨[], rfl, rfl, by simp⟩

theorem add_time {x t : F64} (hx : IsTime x) (ht : IsTime t) : IsTime (F64.add x t) ∧ AtMost x (F64.add x t) := by
  obtain ⟨x1, x2, x3, x4⟩ := hx
  obtain ⟨t1, t2, t3, t4⟩ := ht
  have xn : x ≠ .inf true := by
    rintro rfl
    rcases x4 with h | h | ⟨p, q, -, h, -⟩
    · cases h
    · cases h
    · exact h
  have tn : t ≠ .inf true := by
    rintro rfl
    rcases t4 with h | h | ⟨p, q, -, h, -⟩
    · cases h
    · cases h
    · exact h
  have nn : F64.add x t ≠ .nan := by
    cases x with
    | nan => exact absurd rfl x3
    | inf s =>
      cases s with
      | true => exact absurd rfl xn
      | false =>
        cases t with
        | nan => exact absurd rfl t3
        | inf s =>
          cases s with
          | true => exact absurd rfl tn
          | false => simp [F64.add]
        | zero s => simp [F64.add]
        | fin q => simp [F64.add]
    | zero s =>
      cases t with
      | nan => exact absurd rfl t3
      | inf s => simp [F64.add]
      | zero s => simp [F64.add]
      | fin q => simp [F64.add]
    | fin p =>
      cases t with
      | nan => exact absurd rfl t3
      | inf s => simp [F64.add]
      | zero s => simp [F64.add]
      | fin q => exact F64.round_ne_nan _ _
  have z : IsDouble (.zero false) := trivial
  have n0 : F64.add x (.zero false) ≠ .nan := by cases x <;> simp_all [F64.add]
  have h1 := F64.add_mono x1 x1 z t1 (show AtMost x x from (F64.fle_atMost x x).1 (F64.fle_refl x3)) ⟨t2, t3, t4⟩ n0 nn
  have h2 : AtMost x (F64.add x t) := by
    cases x with
    | nan => exact absurd rfl x3
    | inf s => exact h1
    | zero s => exact F64.atMost_left (x := F64.add (.zero s) (.zero false)) (p := 0) (by simp [F64.add, HasValue]) (by simp [HasValue]) h1
    | fin p => exact h1
  refine ⟨⟨F64.add_isDouble x1 t1, ?_⟩, h2⟩
  exact (F64.fle_atMost _ _).1 (F64.fle_trans ((F64.fle_atMost _ _).2 ⟨x2, x3, x4⟩) ((F64.fle_atMost _ _).2 h2))

/-- **C144.** If the clock never runs backwards, the time saved is never negative, and it only falls when the cache is cleared. -/
theorem C144_grows (X : Ext) (reg : Registry) (cap : Nat) (h : List (Event × F64)) (hh : ∀ p ∈ h, IsTime p.2) (e : Event) (ms : F64) :
    let s := (Timed.start X reg cap).after h
    AtMost (.zero false) s.saved ∧ (e ≠ .clear → AtMost s.saved (s.step e ms).saved) := by
  have all : ∀ ts : List F64, (∀ t ∈ ts, IsTime t) → ∀ a, IsTime a → IsTime (ts.foldl F64.add a) := by
    intro ts
    induction ts with
    | nil => intro _ a ha; exact ha
    | cons t ts ih => intro h a ha; exact ih (fun t ht => h t (by simp [ht])) _ (add_time ha (h t (by simp))).1
  have zero : IsTime (.zero false) := ⟨trivial, by simp, by simp, .inr (.inr ⟨0, 0, rfl, rfl, le_refl _⟩)⟩
  have hs : IsTime ((Timed.start X reg cap).after h).saved := by
    obtain ⟨ts, -, e, h3⟩ := C144_sum X reg cap h
    rw [e]
    exact all ts (fun t ht => by obtain ⟨r, hr⟩ := h3 t ht; exact hh _ hr) _ zero
  intro s
  refine ⟨hs.2, fun he => ?_⟩
  by_cases hit : ∃ r en, e = .request r ∧ (s.server.cache.get (r.key s.server.X)).1 = some en
  · obtain ⟨r, en, rfl, hg⟩ := hit
    obtain ⟨t, ⟨h1, r', h2, rfl, -⟩, ht⟩ := C144_hit X reg cap h r ms en hg
    rw [ht]
    exact (add_time hs (hh (.request r', t) (by simp))).2
  · rw [(C144_else s e ms).2 he ?_]
    · exact (F64.fle_atMost _ _).1 (F64.fle_refl hs.2.2.1)
    · rintro r rfl
      by_contra hc
      obtain ⟨en, hen⟩ := Option.ne_none_iff_exists'.1 hc
      exact hit ⟨r, en, rfl, hen⟩

/-- An expression asked for three times, evaluated once in two milliseconds: four are saved. -/
example (X : Ext) (reg : Registry) :
    ((Timed.start X reg 1000).after [(.request ⟨c!"1 + 2", [], false⟩, .fin 2), (.store 0, .zero false), (.request ⟨c!"1 + 2", [], false⟩, .fin 7), (.request ⟨c!"1 + 2", [], true⟩, .fin 7)]).saved = .fin 4 := by
  kernel_rfl

end HttpCache
