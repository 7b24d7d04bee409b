import Verif.Model.Daemon
/-! C109: a server started with `-d` goes to the background as one process. -/

namespace Daemon

/-- The process is not at its end: it has neither ended nor only to call `exit`. -/
def Acts : Point → Prop
  | .leave | .exited _ => False
  | _ => True

/-- The process has gone through `daemonize` and runs. -/
def Detached : Point → Prop
  | .create | .write .. | .closeFile _ | .bind | .serving => True
  | _ => False

/-- Servers started in a history. -/
def starts (h : List Event) : Nat := (h.filter fun e => match e with | .start .. => true | _ => false).length

theorem at_put (t : Fds) (k j : Nat) (v : Option Target) : (t.put k v).at j = if j = k then v else t.at j := by
  unfold Fds.put Fds.at
  rw [List.getElem?_set]
  by_cases h : j = k
  · subst h
    have : j < (t ++ List.replicate (j + 1 - t.length) (none : Option Target)).length := by simp; omega
    rw [if_pos rfl, if_pos this, if_pos rfl]
    rfl
  · rw [if_neg (fun h' => h h'.symm), if_neg h, List.getElem?_append]
    split
    · rfl
    · rename_i hl
      rw [List.getElem?_replicate, List.getElem?_eq_none (by omega)]
      split <;> rfl

theorem lowest_zero (t : Fds) (h : t.at 0 = none) : t.lowest = 0 := by
  cases t with
  | nil => rfl
  | cons a t =>
    cases a with
    | none => rfl
    | some a => simp [Fds.at] at h

/-- A process in the session of another. -/
def Own (pid : Nat) (p : Proc) : Prop := p.root ≠ pid ∧ ∃ l, p.session = .ledBy l ∧ l ≠ pid

/-- What is known of a process at each point. -/
def Good (pid : Nat) (p : Proc) : Prop :=
  match p.point with
  | .fork1 => p.root = pid ∧ ∃ n, p.session = .users n
  | .setsid => p.root ≠ pid ∧ ∃ n, p.session = .users n
  | .fork2 => p.root ≠ pid ∧ p.session = .ledBy pid
  | .close k => Own pid p ∧ k ≤ 2 ∧ ∀ j < k, p.fds.at j = none
  | .open => Own pid p ∧ ∀ j ≤ 2, p.fds.at j = none
  | .dup fd k => Own pid p ∧ fd = 0 ∧ k ≤ 2 ∧ p.fds.at 0 = some .devNull ∧ ∀ j < k, p.fds.at j = some .devNull
  | .drop fd => Own pid p ∧ fd = 0 ∧ ∀ j ≤ 2, p.fds.at j = some .devNull
  | .create | .bind => Own pid p ∧ p.fds.at 0 = none ∧ p.fds.at 1 = some .devNull ∧ p.fds.at 2 = some .devNull
  | .write fd _ | .closeFile fd => Own pid p ∧ fd = 0 ∧ p.fds.at 0 = some .pidFile ∧ p.fds.at 1 = some .devNull ∧ p.fds.at 2 = some .devNull
  | .serving => Own pid p ∧ p.fds.at 0 = some .socket ∧ p.fds.at 1 = some .devNull ∧ p.fds.at 2 = some .devNull
  | .leave => (p.root = pid ∧ ∃ n, p.session = .users n) ∨ (p.root ≠ pid ∧ p.session = .ledBy pid)
  | .exited _ => True

/-- The invariant on processes. -/
structure Inv (procs : Nat → Option Proc) (next : Nat) : Prop where
  fresh : ∀ pid p, procs pid = some p → pid < next ∧ p.root < next
  one : ∀ a b p q, procs a = some p → procs b = some q → p.root = q.root → Acts p.point → Acts q.point → a = b
  good : ∀ pid p, procs pid = some p → Good pid p
  alone : ∀ pid p, procs pid = some p → p.root = pid → p.point = .fork1 ∨ p.point = .exited (some 1) →
    ∀ q p', procs q = some p' → p'.root = pid → q = pid
  child : ∀ pid p, procs pid = some p → p.root = pid → p.point = .leave ∨ p.point = .exited (some 0) →
    ∃ q p', q ≠ pid ∧ procs q = some p' ∧ p'.root = pid

/-- A change of one process. -/
theorem Inv.put {procs next} (hi : Inv procs next) {pid : Nat} {p p' : Proc} (hp : procs pid = some p) (hr : p'.root = p.root)
    (ha : Acts p'.point → Acts p.point) (hg : Good pid p')
    (h1 : p.root = pid → p'.point = .fork1 ∨ p'.point = .exited (some 1) → p.point = .fork1 ∨ p.point = .exited (some 1))
    (h2 : p.root = pid → p'.point = .leave ∨ p'.point = .exited (some 0) → p.point = .leave ∨ p.point = .exited (some 0)) :
    Inv (fun q => if q = pid then some p' else procs q) next := by
  have root : ∀ q x, (if q = pid then some p' else procs q) = some x → ∃ y, procs q = some y ∧ y.root = x.root ∧ (Acts x.point → Acts y.point) := by
    intro q x hx
    split at hx
    · rename_i h; subst h
      simp only [Option.some.injEq] at hx; subst hx
      exact ⟨p, hp, hr.symm, ha⟩
    · exact ⟨x, hx, rfl, id⟩
  constructor
  · intro q x hx
    obtain ⟨y, hy, hyr, _⟩ := root q x hx
    rw [← hyr]; exact hi.fresh q y hy
  · intro a b x y hx hy hxy hax hay
    obtain ⟨x', hx', hxr, hxa⟩ := root a x hx
    obtain ⟨y', hy', hyr, hya⟩ := root b y hy
    exact hi.one a b x' y' hx' hy' (by rw [hxr, hyr, hxy]) (hxa hax) (hya hay)
  · intro q x hx
    split at hx
    · rename_i h; subst h
      simp only [Option.some.injEq] at hx; subst hx; exact hg
    · exact hi.good q x hx
  · intro q x hx hq hpt z z' hz hzr
    obtain ⟨y, hy, hyr, _⟩ := root z z' hz
    split at hx
    · rename_i h; subst h
      simp only [Option.some.injEq] at hx; subst hx
      exact hi.alone q p hp (hr ▸ hq) (h1 (hr ▸ hq) hpt) z y hy (hyr.trans hzr)
    · exact hi.alone q x hx hq hpt z y hy (hyr.trans hzr)
  · intro q x hx hq hpt
    have fin : (∃ z p', z ≠ q ∧ procs z = some p' ∧ p'.root = q) → ∃ z x, z ≠ q ∧ (if z = pid then some p' else procs z) = some x ∧ x.root = q := by
      rintro ⟨z, z', hzq, hz, hzr⟩
      by_cases h : z = pid
      · subst h
        rw [hp] at hz; simp only [Option.some.injEq] at hz; subst hz
        exact ⟨z, p', hzq, by simp, hr.trans hzr⟩
      · exact ⟨z, z', hzq, by simp [h, hz], hzr⟩
    split at hx
    · rename_i h; subst h
      simp only [Option.some.injEq] at hx; subst hx
      exact fin (hi.child q p hp (hr ▸ hq) (h2 (hr ▸ hq) hpt))
    · exact fin (hi.child q x hx hq hpt)

/-- A fork: the parent has to leave, the child acts. -/
theorem Inv.fork {procs next} (hi : Inv procs next) {pid : Nat} {p : Proc} {pt : Point} (hp : procs pid = some p) (ha : Acts p.point)
    (hg : Good pid { p with point := .leave }) (hc : Good next { p with point := pt }) :
    Inv (fun q => if q = next then some { p with point := pt } else if q = pid then some { p with point := .leave } else procs q) (next + 1) := by
  have hlt := hi.fresh pid p hp
  have hne : pid ≠ next := by omega
  have old : ∀ q, q ≠ next → ∀ x, (if q = pid then some { p with point := .leave } else procs q) = some x →
      ∃ y, procs q = some y ∧ y.root = x.root ∧ (Acts x.point → Acts y.point ∧ q ≠ pid) := by
    intro q hq x hx
    split at hx
    · rename_i h; subst h
      simp only [Option.some.injEq] at hx; subst hx
      exact ⟨p, hp, rfl, fun h => absurd h (by simp [Acts])⟩
    · rename_i h; exact ⟨x, hx, rfl, fun h' => ⟨h', h⟩⟩
  have rootlt : ∀ q x, (if q = next then some { p with point := pt } else if q = pid then some { p with point := .leave } else procs q) = some x →
      q < next + 1 ∧ x.root < next := by
    intro q x hx
    split at hx
    · rename_i h
      simp only [Option.some.injEq] at hx; subst hx
      exact ⟨by omega, hlt.2⟩
    · rename_i h
      obtain ⟨y, hy, hyr, _⟩ := old q h x hx
      have := hi.fresh q y hy
      omega
  constructor
  · intro q x hx
    have := rootlt q x hx
    omega
  · intro a b x y hx hy hxy hax hay
    by_cases h : a = next <;> by_cases h' : b = next
    · rw [h, h']
    · rw [if_pos h] at hx; rw [if_neg h'] at hy
      simp only [Option.some.injEq] at hx; subst hx
      obtain ⟨y', hy', hyr, hya⟩ := old b h' y hy
      have := hi.one pid b p y' hp hy' (by rw [hyr]; exact hxy) ha (hya hay).1
      exact absurd this.symm (hya hay).2
    · rw [if_neg h] at hx; rw [if_pos h'] at hy
      simp only [Option.some.injEq] at hy; subst hy
      obtain ⟨x', hx', hxr, hxa⟩ := old a h x hx
      have := hi.one pid a p x' hp hx' (by rw [hxr]; exact hxy.symm) ha (hxa hax).1
      exact absurd this.symm (hxa hax).2
    · rw [if_neg h] at hx; rw [if_neg h'] at hy
      obtain ⟨x', hx', hxr, hxa⟩ := old a h x hx
      obtain ⟨y', hy', hyr, hya⟩ := old b h' y hy
      exact hi.one a b x' y' hx' hy' (by rw [hxr, hyr, hxy]) (hxa hax).1 (hya hay).1
  · intro q x hx
    split at hx
    · rename_i h; subst h
      simp only [Option.some.injEq] at hx; subst hx; exact hc
    · split at hx
      · rename_i h; subst h
        simp only [Option.some.injEq] at hx; subst hx; exact hg
      · exact hi.good q x hx
  · intro q x hx hq hpt z z' hz hzr
    have hxr := rootlt q x hx
    have hqn : q ≠ next := by omega
    rw [if_neg hqn] at hx
    by_cases hqp : q = pid
    · rw [if_pos hqp] at hx
      simp only [Option.some.injEq] at hx; subst hx
      simp at hpt
    · rw [if_neg hqp] at hx
      by_cases hz' : z = next
      · rw [if_pos hz'] at hz
        simp only [Option.some.injEq] at hz; subst hz
        have := hi.alone q x hx hq hpt pid p hp hzr
        exact absurd this.symm hqp
      · rw [if_neg hz'] at hz
        obtain ⟨y, hy, hyr, _⟩ := old z hz' z' hz
        exact hi.alone q x hx hq hpt z y hy (hyr.trans hzr)
  · intro q x hx hq hpt
    have hxr := rootlt q x hx
    have hqn : q ≠ next := by omega
    rw [if_neg hqn] at hx
    by_cases hqp : q = pid
    · subst hqp
      simp only [if_pos, Option.some.injEq] at hx; subst hx
      exact ⟨next, { p with point := pt }, fun h => hqn h.symm, by simp, hq⟩
    · rw [if_neg hqp] at hx
      obtain ⟨z, z', hzq, hz, hzr⟩ := hi.child q x hx hq hpt
      have hzn : z ≠ next := by have := hi.fresh z z' hz; omega
      by_cases hzp : z = pid
      · subst hzp
        rw [hp] at hz; simp only [Option.some.injEq] at hz; subst hz
        exact ⟨z, { p with point := .leave }, hzq, by simp [hzn], hzr⟩
      · exact ⟨z, z', hzq, by simp [hzn, hzp, hz], hzr⟩

theorem Inv.start {procs next} (hi : Inv procs next) (s : Nat) (fds : Fds) :
    Inv (fun q => if q = next then some ⟨next, .users s, fds, .fork1⟩ else procs q) (next + 1) := by
  have old : ∀ q x, (if q = next then some ⟨next, .users s, fds, .fork1⟩ else procs q) = some x → (q = next ∧ x = ⟨next, .users s, fds, .fork1⟩) ∨
      (procs q = some x ∧ q < next ∧ x.root < next) := by
    intro q x hx
    split at hx
    · rename_i h; simp only [Option.some.injEq] at hx; exact .inl ⟨h, hx.symm⟩
    · exact .inr ⟨hx, hi.fresh q x hx⟩
  constructor
  · intro q x hx
    rcases old q x hx with ⟨rfl, rfl⟩ | ⟨_, h1, h2⟩
    · simp
    · omega
  · intro a b x y hx hy hxy hax hay
    rcases old a x hx with ⟨rfl, rfl⟩ | ⟨hx', h1, h2⟩ <;> rcases old b y hy with ⟨rfl, rfl⟩ | ⟨hy', h3, h4⟩
    · rfl
    · simp only at hxy; omega
    · simp only at hxy; omega
    · exact hi.one a b x y hx' hy' hxy hax hay
  · intro q x hx
    rcases old q x hx with ⟨rfl, rfl⟩ | ⟨hx', h1, h2⟩
    · exact ⟨rfl, s, rfl⟩
    · exact hi.good q x hx'
  · intro q x hx hq hpt z z' hz hzr
    rcases old q x hx with ⟨rfl, rfl⟩ | ⟨hx', h1, h2⟩ <;> rcases old z z' hz with ⟨rfl, rfl⟩ | ⟨hz', h3, h4⟩
    · rfl
    · omega
    · simp only at hzr; omega
    · exact hi.alone q x hx' hq hpt z z' hz' hzr
  · intro q x hx hq hpt
    rcases old q x hx with ⟨rfl, rfl⟩ | ⟨hx', h1, h2⟩
    · simp at hpt
    · obtain ⟨z, z', hzq, hz, hzr⟩ := hi.child q x hx' hq hpt
      exact ⟨z, z', hzq, by have := hi.fresh z z' hz; rw [if_neg (by omega)]; exact hz, hzr⟩

theorem own_of {pid : Nat} {p p' : Proc} (h : Own pid p) (hr : p'.root = p.root) (hs : p'.session = p.session) : Own pid p' := by
  unfold Own; rw [hr, hs]; exact h

theorem Inv.step {w : World} (hi : Inv w.procs w.next) (e : Event) : Inv (w.step e).procs (w.step e).next := by
  cases e with
  | start s fds => exact hi.start s fds
  | stop pid =>
    simp only [World.step]
    cases hp : w.procs pid with
    | none => exact hi
    | some p =>
      have hg := hi.good pid p hp
      simp only
      split
      · exact hi
      · rename_i hpt
        refine hi.put (p' := { p with point := .exited (some 0) }) hp rfl (by simp [Acts]) trivial (fun _ h => by simp at h) (fun hr _ => ?_)
        simp only [Good, hpt, Own] at hg
        exact absurd hr hg.1.1
      · exact hi.put (p' := { p with point := .exited none }) hp rfl (by simp [Acts]) trivial (fun _ h => by simp at h) (fun _ h => by simp at h)
  | turn pid fails =>
    simp only [World.step]
    cases hp : w.procs pid with
    | none => exact hi
    | some p =>
      have hg := hi.good pid p hp
      have hlt := (hi.fresh pid p hp).1
      simp only
      obtain ⟨root, session, fds, point⟩ := p
      cases point with
      | fork1 =>
        simp only [World.act]
        split
        · exact hi.put hp rfl (by simp [Acts]) trivial (fun _ _ => .inl rfl) (fun _ h => by simp at h)
        · simp only [Good] at hg
          refine hi.fork (pt := .setsid) hp trivial ?_ ?_
          · exact .inl hg
          · exact ⟨by simp only; omega, hg.2⟩
      | setsid =>
        simp only [Good] at hg
        simp only [World.act]
        split
        · exact hi.put hp rfl (by simp [Acts]) trivial (fun h _ => absurd h hg.1) (fun _ h => by simp at h)
        · exact hi.put hp rfl (fun _ => trivial) ⟨hg.1, rfl⟩ (fun h _ => absurd h hg.1) (fun h _ => absurd h hg.1)
      | fork2 =>
        simp only [Good] at hg
        simp only [World.act]
        split
        · exact hi.put hp rfl (by simp [Acts]) trivial (fun h _ => absurd h hg.1) (fun _ h => by simp at h)
        · refine hi.fork (pt := .close 0) hp trivial (.inr hg) ?_
          have := (hi.fresh pid _ hp).2
          exact ⟨⟨by simp only at this ⊢; omega, pid, hg.2, by omega⟩, by omega, by simp⟩
      | close k =>
        simp only [Good] at hg
        simp only [World.act]
        refine hi.put hp rfl (fun _ => trivial) ?_ (fun h _ => absurd h hg.1.1) (fun h _ => absurd h hg.1.1)
        have : ∀ j < k + 1, (fds.put k none).at j = none := by
          intro j hj
          rw [at_put]
          split
          · rfl
          · exact hg.2.2 j (by omega)
        by_cases hk : k < 2
        · simp only [hk, if_true, Good]
          exact ⟨own_of hg.1 rfl rfl, by omega, this⟩
        · simp only [hk, if_false, Good]
          exact ⟨own_of hg.1 rfl rfl, fun j hj => this j (by omega)⟩
      | «open» =>
        simp only [Good] at hg
        simp only [World.act]
        have hl := lowest_zero fds (hg.2 0 (by omega))
        split
        · exact hi.put hp rfl (by simp [Acts]) trivial (fun h _ => absurd h hg.1.1) (fun _ h => by simp at h)
        · refine hi.put hp rfl (fun _ => trivial) ?_ (fun h _ => absurd h hg.1.1) (fun h _ => absurd h hg.1.1)
          simp only [Good]
          exact ⟨own_of hg.1 rfl rfl, hl, by omega, by rw [hl, at_put]; rfl, by simp⟩
      | dup fd k =>
        simp only [Good] at hg
        simp only [World.act]
        obtain ⟨ho, rfl, hk2, h0, hj⟩ := hg
        refine hi.put hp rfl (fun _ => trivial) ?_ (fun h _ => absurd h ho.1) (fun h _ => absurd h ho.1)
        have : ∀ j < k + 1, (fds.put k (fds.at 0)).at j = some .devNull := by
          intro j hj'
          rw [at_put]
          split
          · exact h0
          · exact hj j (by omega)
        by_cases hk : k < 2
        · simp only [hk, if_true, Good]
          exact ⟨own_of ho rfl rfl, trivial, by omega, this 0 (by omega), this⟩
        · simp only [hk, if_false, Good]
          exact ⟨own_of ho rfl rfl, trivial, fun j hj => this j (by omega)⟩
      | drop fd =>
        simp only [Good] at hg
        simp only [World.act]
        obtain ⟨ho, rfl, hj⟩ := hg
        refine hi.put hp rfl (fun _ => trivial) ?_ (fun h _ => absurd h ho.1) (fun h _ => absurd h ho.1)
        simp only [Good, at_put]
        exact ⟨own_of ho rfl rfl, rfl, hj 1 (by omega), hj 2 (by omega)⟩
      | create =>
        simp only [Good] at hg
        simp only [World.act]
        have hl := lowest_zero fds hg.2.1
        split
        · exact hi.put hp rfl (by simp [Acts]) trivial (fun h _ => absurd h hg.1.1) (fun _ h => by simp at h)
        · refine hi.put hp rfl (fun _ => trivial) ?_ (fun h _ => absurd h hg.1.1) (fun h _ => absurd h hg.1.1)
          simp only [Good, hl, at_put]
          exact ⟨own_of hg.1 rfl rfl, trivial, rfl, hg.2.2⟩
      | write fd done =>
        simp only [Good] at hg
        simp only [World.act]
        split
        · exact hi.put hp rfl (by simp [Acts]) trivial (fun h _ => absurd h hg.1.1) (fun _ h => by simp at h)
        · split
          · exact hi.put hp rfl (fun _ => trivial) hg (fun h _ => absurd h hg.1.1) (fun h _ => absurd h hg.1.1)
          · exact hi.put hp rfl (fun _ => trivial) hg (fun h _ => absurd h hg.1.1) (fun h _ => absurd h hg.1.1)
      | closeFile fd =>
        simp only [Good] at hg
        simp only [World.act]
        obtain ⟨ho, rfl, h0, h12⟩ := hg
        refine hi.put hp rfl (fun _ => trivial) ?_ (fun h _ => absurd h ho.1) (fun h _ => absurd h ho.1)
        simp only [Good, at_put]
        exact ⟨own_of ho rfl rfl, rfl, h12⟩
      | bind =>
        simp only [Good] at hg
        simp only [World.act]
        have hl := lowest_zero fds hg.2.1
        split
        · exact hi.put hp rfl (by simp [Acts]) trivial (fun h _ => absurd h hg.1.1) (fun _ h => by simp at h)
        · refine hi.put hp rfl (fun _ => trivial) ?_ (fun h _ => absurd h hg.1.1) (fun h _ => absurd h hg.1.1)
          simp only [Good, hl, at_put]
          exact ⟨own_of hg.1 rfl rfl, rfl, hg.2.2⟩
      | serving => exact hi
      | leave => exact hi.put hp rfl (by simp [Acts]) trivial (fun _ h => by simp at h) (fun _ _ => .inl rfl)
      | exited s => exact hi

theorem after_inv (first : Nat) (file : Option Str) (h : List Event) : Inv (World.after first file h).procs (World.after first file h).next := by
  unfold World.after
  have : ∀ (h : List Event) (w : World), Inv w.procs w.next → Inv (h.foldl World.step w).procs (h.foldl World.step w).next := by
    intro h
    induction h with
    | nil => exact fun _ h => h
    | cons e h ih => exact fun w hw => ih _ (hw.step e)
  exact this h _ ⟨by simp, by simp, by simp, by simp, by simp⟩

/-- C109: of the processes of one start, at most one goes on; all others have ended or have nothing left but to end. -/
theorem C109_one_process (first : Nat) (file : Option Str) (h : List Event) (a b : Nat) (p q : Proc)
    (ha : (World.after first file h).procs a = some p) (hb : (World.after first file h).procs b = some q) (hr : p.root = q.root)
    (hp : Acts p.point) (hq : Acts q.point) : a = b :=
  (after_inv first file h).one a b p q ha hb hr hp hq

/-- C109: the process that goes on is not the one started and is in a new session that it does not lead; its standard output and standard error go to `/dev/null`. -/
theorem C109_detached_partial (first : Nat) (file : Option Str) (h : List Event) (pid : Nat) (p : Proc)
    (hp : (World.after first file h).procs pid = some p) (hd : Detached p.point) :
    p.root ≠ pid ∧ (∃ leader, p.session = .ledBy leader ∧ leader ≠ pid) ∧ p.fds.at 1 = some .devNull ∧ p.fds.at 2 = some .devNull := by
  have hg := (after_inv first file h).good pid p hp
  unfold Good at hg
  cases hpt : p.point <;> simp only [hpt, Detached] at hg hd <;>
    first | exact ⟨hg.1.1, hg.1.2, hg.2.2⟩ | exact ⟨hg.1.1, hg.1.2, hg.2.2.2⟩

/-- C109 fails for standard input, always: the descriptor of `/dev/null` that becomes descriptor 0 is closed again when `daemonize` returns, so descriptor 0 is
closed, is then given to the next file opened, and is never `/dev/null`. -/
theorem C109_stdin (first : Nat) (file : Option Str) (h : List Event) (pid : Nat) (p : Proc)
    (hp : (World.after first file h).procs pid = some p) :
    (p.point = .create → p.fds.at 0 = none) ∧ (∀ fd n, p.point = .write fd n → p.fds.at 0 = some .pidFile) ∧ (Detached p.point → p.fds.at 0 ≠ some .devNull) := by
  have hg := (after_inv first file h).good pid p hp
  refine ⟨?_, ?_, ?_⟩
  · intro h; simp only [Good, h] at hg; exact hg.2.1
  · intro fd n h; simp only [Good, h] at hg; exact hg.2.2.1
  · unfold Good at hg
    cases hpt : p.point <;> simp only [hpt] at hg <;> simp [hg, Detached]

/-- C109: the command ends with status 1 only if it has left no other process, and with status 0 only if it has. -/
theorem C109_status_partial (first : Nat) (file : Option Str) (h : List Event) (pid : Nat) (p : Proc)
    (hp : (World.after first file h).procs pid = some p) (hr : p.root = pid) :
    (p.point = .exited (some 1) → ∀ q p', (World.after first file h).procs q = some p' → p'.root = pid → q = pid) ∧
    (p.point = .exited (some 0) → ∃ q p', q ≠ pid ∧ (World.after first file h).procs q = some p' ∧ p'.root = pid) :=
  ⟨fun hpt => (after_inv first file h).alone pid p hp hr (.inr hpt), fun hpt => (after_inv first file h).child pid p hp hr (.inr hpt)⟩

/-! ### Who listens -/

theorem listens_step {w : World} (hi : ∀ pid, w.listening = some pid ↔ ∃ p, w.procs pid = some p ∧ p.point = .serving) (hn : ∀ pid p, w.procs pid = some p → pid < w.next)
    (e : Event) : ∀ pid, (w.step e).listening = some pid ↔ ∃ p, (w.step e).procs pid = some p ∧ p.point = .serving := by
  have put : ∀ (pid : Nat) (p p' : Proc), w.procs pid = some p → p.point ≠ .serving → p'.point ≠ .serving → ∀ q, w.listening = some q ↔
      ∃ x, (if q = pid then some p' else w.procs q) = some x ∧ x.point = .serving := by
    intro pid p p' hp h1 h2 q
    rw [hi q]
    by_cases h : q = pid
    · subst h
      simp only [hp, Option.some.injEq, exists_eq_left', if_pos]
      exact ⟨fun h => absurd h h1, fun h => absurd h h2⟩
    · simp [h]
  have fresh : ∀ (p' : Proc) (procs : Nat → Option Proc), p'.point ≠ .serving → procs w.next = none → (∀ q, w.listening = some q ↔ ∃ x, procs q = some x ∧ x.point = .serving) →
      ∀ q, w.listening = some q ↔ ∃ x, (if q = w.next then some p' else procs q) = some x ∧ x.point = .serving := by
    intro p' procs h2 hx h q
    rw [h q]
    by_cases h' : q = w.next
    · subst h'
      simp only [hx, if_pos, Option.some.injEq, exists_eq_left', reduceCtorEq, false_and, exists_false, false_iff]
      exact h2
    · simp [h']
  have hnone : w.procs w.next = none := by
    cases h : w.procs w.next with
    | none => rfl
    | some p => have := hn _ _ h; omega
  cases e with
  | start s fds => exact fresh _ _ (by simp) hnone hi
  | stop pid =>
    simp only [World.step]
    cases hp : w.procs pid with
    | none => exact hi
    | some p =>
      simp only
      split
      · exact hi
      · rename_i hpt
        have hl : w.listening = some pid := (hi pid).2 ⟨p, hp, hpt⟩
        intro q
        simp only [hl, if_true, World.put, reduceCtorEq, false_iff, not_exists, not_and]
        intro x hx
        split at hx
        · simp only [Option.some.injEq] at hx; subst hx; simp
        · rename_i hq
          intro hs
          have := (hi q).2 ⟨x, hx, hs⟩
          rw [hl] at this
          exact hq (by simpa using this.symm)
      · rename_i h1 h2
        exact put pid p _ hp h2 (by simp)
  | turn pid fails =>
    simp only [World.step]
    cases hp : w.procs pid with
    | none => exact hi
    | some p =>
      simp only
      have hpn : pid ≠ w.next := by have := hn _ _ hp; omega
      obtain ⟨root, session, fds, point⟩ := p
      have keep : ∀ p' : Proc, point ≠ .serving → p'.point ≠ .serving → ∀ q, w.listening = some q ↔
          ∃ x, (if q = pid then some p' else w.procs q) = some x ∧ x.point = .serving := fun p' h h' => put pid _ p' hp h h'
      cases point with
      | fork1 =>
        simp only [World.act]
        split
        · exact keep _ (by simp) (by simp)
        · exact fresh _ (fun q => if q = pid then some ⟨root, session, fds, .leave⟩ else w.procs q) (by simp) (by simp [hpn.symm, hnone]) (keep ⟨root, session, fds, .leave⟩ (by simp) (by simp))
      | fork2 =>
        simp only [World.act]
        split
        · exact keep _ (by simp) (by simp)
        · exact fresh _ (fun q => if q = pid then some ⟨root, session, fds, .leave⟩ else w.procs q) (by simp) (by simp [hpn.symm, hnone]) (keep ⟨root, session, fds, .leave⟩ (by simp) (by simp))
      | setsid => simp only [World.act]; split <;> exact keep _ (by simp) (by simp)
      | close k => simp only [World.act]; exact keep _ (by simp) (by dsimp only; split <;> simp)
      | «open» => simp only [World.act]; split <;> exact keep _ (by simp) (by simp)
      | dup fd k => simp only [World.act]; exact keep _ (by simp) (by dsimp only; split <;> simp)
      | drop fd => exact keep _ (by simp) (by simp)
      | create => simp only [World.act]; split <;> exact keep _ (by simp) (by simp)
      | write fd done => simp only [World.act]; split; exact keep _ (by simp) (by simp); split <;> exact keep _ (by simp) (by simp)
      | closeFile fd => exact keep _ (by simp) (by simp)
      | bind =>
        simp only [World.act]
        split
        · exact keep _ (by simp) (by simp)
        · rename_i hb
          have hl : w.listening = none := by
            cases h : w.listening with
            | none => rfl
            | some q => simp [h] at hb
          intro q
          simp only [World.put, Option.some.injEq]
          by_cases hq : q = pid
          · subst hq; simp
          · have := hi q
            rw [hl] at this
            simp only [reduceCtorEq, false_iff] at this
            simp only [if_neg hq]
            exact ⟨fun h => absurd h.symm hq, fun h => absurd h this⟩
      | serving => exact hi
      | leave => exact keep _ (by simp) (by simp)
      | exited s => exact hi

theorem after_listens (first : Nat) (file : Option Str) (h : List Event) : ∀ pid, (World.after first file h).listening = some pid ↔
    ∃ p, (World.after first file h).procs pid = some p ∧ p.point = .serving := by
  unfold World.after
  have : ∀ (h : List Event) (w : World), Inv w.procs w.next → (∀ pid, w.listening = some pid ↔ ∃ p, w.procs pid = some p ∧ p.point = .serving) →
      ∀ pid, (h.foldl World.step w).listening = some pid ↔ ∃ p, (h.foldl World.step w).procs pid = some p ∧ p.point = .serving := by
    intro h
    induction h with
    | nil => exact fun _ _ h => h
    | cons e h ih => exact fun w hw hl => ih _ (hw.step e) (listens_step hl (fun pid p hp => (hw.fresh pid p hp).1) e)
  exact this h _ ⟨by simp, by simp, by simp, by simp, by simp⟩ (by simp)

/-- C109: of all servers started for a port at most one serves. -/
theorem C109_one_server (first : Nat) (file : Option Str) (h : List Event) (a b : Nat) (p q : Proc)
    (ha : (World.after first file h).procs a = some p) (hb : (World.after first file h).procs b = some q) (hp : p.point = .serving) (hq : q.point = .serving) :
    a = b := by
  have h1 := (after_listens first file h a).2 ⟨p, ha, hp⟩
  have h2 := (after_listens first file h b).2 ⟨q, hb, hq⟩
  rw [h1] at h2
  simpa using h2

/-! ### The file with the process number -/

/-- What the file holds while a process writes it and after, when no other process writes it. -/
def Filed (pid : Nat) (file : Option Str) : Point → Prop
  | .write _ 0 => file = some []
  | .write _ n => n = (digits pid).length ∧ file = some (digits pid)
  | .closeFile _ | .bind | .serving => file = some (digits pid ++ ['\n'])
  | _ => True

theorem digits_length (n : Nat) : (digits n).length ≠ 0 := by
  unfold digits
  intro h
  have : Nat.toDigits 10 n = [] := List.length_eq_zero_iff.1 h
  exact Nat.toDigits_ne_nil this

theorem filed_step {w : World} (hi : Inv w.procs w.next) (hs : ∀ a b p q, w.procs a = some p → w.procs b = some q → p.root = q.root)
    (hf : ∀ pid p, w.procs pid = some p → Filed pid w.file p.point) (e : Event)
    (he : (∀ s fds, e ≠ .start s fds) ∨ ∀ q, w.procs q = none) :
    (∀ a b p q, (w.step e).procs a = some p → (w.step e).procs b = some q → p.root = q.root) ∧
    (∀ pid p, (w.step e).procs pid = some p → Filed pid (w.step e).file p.point) ∧ (∀ q p, w.procs q = some p → ∃ p', (w.step e).procs q = some p') := by
  -- a change of one process
  have put : ∀ (pid : Nat) (p p' : Proc) (file : Option Str), w.procs pid = some p → p'.root = p.root →
      (∀ q x, q ≠ pid → w.procs q = some x → Filed q file x.point) → Filed pid file p'.point →
      (∀ a b x y, (if a = pid then some p' else w.procs a) = some x → (if b = pid then some p' else w.procs b) = some y → x.root = y.root) ∧
      (∀ q x, (if q = pid then some p' else w.procs q) = some x → Filed q file x.point) ∧
      (∀ q x, w.procs q = some x → ∃ x', (if q = pid then some p' else w.procs q) = some x') := by
    intro pid p p' file hp hr ho hn
    have old : ∀ a x, (if a = pid then some p' else w.procs a) = some x → x.root = p.root := by
      intro a x hx
      split at hx
      · simp only [Option.some.injEq] at hx; subst hx; exact hr
      · exact hs a pid x p hx hp
    refine ⟨fun a b x y hx hy => (old a x hx).trans (old b y hy).symm, ?_, ?_⟩
    · intro q x hx
      split at hx
      · rename_i h; subst h; simp only [Option.some.injEq] at hx; subst hx; exact hn
      · rename_i h; exact ho q x h hx
    · intro q x hx
      split
      · exact ⟨_, rfl⟩
      · exact ⟨x, hx⟩
  -- the file is changed by the only process that acts
  have others : ∀ (pid : Nat) (p : Proc) (file : Option Str), w.procs pid = some p → Acts p.point → ∀ q x, q ≠ pid → w.procs q = some x → Filed q file x.point := by
    intro pid p file hp ha q x hq hx
    have : ¬ Acts x.point := fun hx' => hq (hi.one q pid x p hx hp (hs q pid x p hx hp) hx' ha)
    revert this
    cases x.point <;> simp [Acts, Filed]
  have fork : ∀ (pid : Nat) (p : Proc) (pt : Point), w.procs pid = some p → (pt = .setsid ∨ pt = .close 0) →
      (∀ a b x y, (if a = w.next then some { p with point := pt } else if a = pid then some { p with point := .leave } else w.procs a) = some x →
        (if b = w.next then some { p with point := pt } else if b = pid then some { p with point := .leave } else w.procs b) = some y → x.root = y.root) ∧
      (∀ q x, (if q = w.next then some { p with point := pt } else if q = pid then some { p with point := .leave } else w.procs q) = some x → Filed q w.file x.point) ∧
      (∀ q x, w.procs q = some x → ∃ x', (if q = w.next then some { p with point := pt } else if q = pid then some { p with point := .leave } else w.procs q) = some x') := by
    intro pid p pt hp hpt
    have old : ∀ a x, (if a = w.next then some { p with point := pt } else if a = pid then some { p with point := .leave } else w.procs a) = some x → x.root = p.root := by
      intro a x hx
      split at hx
      · simp only [Option.some.injEq] at hx; subst hx; rfl
      · split at hx
        · simp only [Option.some.injEq] at hx; subst hx; rfl
        · exact hs a pid x p hx hp
    refine ⟨fun a b x y hx hy => (old a x hx).trans (old b y hy).symm, ?_, ?_⟩
    · intro q x hx
      split at hx
      · simp only [Option.some.injEq] at hx; subst hx
        rcases hpt with rfl | rfl <;> trivial
      · split at hx
        · simp only [Option.some.injEq] at hx; subst hx; trivial
        · exact hf q x hx
    · intro q x hx
      split
      · exact ⟨_, rfl⟩
      · split
        · exact ⟨_, rfl⟩
        · exact ⟨x, hx⟩
  cases e with
  | start s fds =>
    rcases he with he | he
    · exact absurd rfl (he s fds)
    · have old : ∀ q x, (if q = w.next then some (⟨w.next, .users s, fds, .fork1⟩ : Proc) else w.procs q) = some x → x = ⟨w.next, .users s, fds, .fork1⟩ := by
        intro q x hx
        split at hx
        · simpa using hx.symm
        · rw [he] at hx; simp at hx
      refine ⟨fun a b x y hx hy => by rw [old a x hx, old b y hy], fun q x hx => ?_, fun q x hx => by rw [he] at hx; simp at hx⟩
      rw [old q x hx]; trivial
  | stop pid =>
    simp only [World.step]
    cases hp : w.procs pid with
    | none => exact ⟨hs, hf, fun q p h => ⟨p, h⟩⟩
    | some p =>
      simp only
      split
      · exact ⟨hs, hf, fun q p h => ⟨p, h⟩⟩
      · exact put pid p _ w.file hp rfl (fun q x _ => hf q x) trivial
      · exact put pid p _ w.file hp rfl (fun q x _ => hf q x) trivial
  | turn pid fails =>
    simp only [World.step]
    cases hp : w.procs pid with
    | none => exact ⟨hs, hf, fun q p h => ⟨p, h⟩⟩
    | some p =>
      simp only
      have hfp := hf pid p hp
      obtain ⟨root, session, fds, point⟩ := p
      have keep : ∀ p' : Proc, p'.root = root → Filed pid w.file p'.point → _ := fun p' h h' => put pid _ p' w.file hp h (fun q x _ => hf q x) h'
      cases point with
      | fork1 =>
        simp only [World.act]
        split
        · exact keep _ rfl trivial
        · exact fork pid _ _ hp (.inl rfl)
      | fork2 =>
        simp only [World.act]
        split
        · exact keep _ rfl trivial
        · exact fork pid _ _ hp (.inr rfl)
      | setsid => simp only [World.act]; split <;> exact keep _ rfl trivial
      | close k => simp only [World.act]; exact keep _ rfl (by dsimp only; split <;> trivial)
      | «open» => simp only [World.act]; split <;> exact keep _ rfl trivial
      | dup fd k => simp only [World.act]; exact keep _ rfl (by dsimp only; split <;> trivial)
      | drop fd => exact keep _ rfl trivial
      | create =>
        simp only [World.act]
        split
        · exact keep _ rfl trivial
        · exact put pid _ _ (some []) hp rfl (others pid _ _ hp trivial) rfl
      | write fd done =>
        simp only [World.act]
        split
        · exact keep _ rfl trivial
        · have hl := digits_length pid
          cases done with
          | zero =>
            simp only [Filed] at hfp
            rw [if_pos rfl, hfp]
            refine put pid _ ⟨root, session, fds, .write fd (digits pid).length⟩ _ hp rfl (others pid _ _ hp trivial) ?_
            generalize hk : (digits pid).length = k at hl ⊢
            cases k with
            | zero => exact absurd rfl hl
            | succ k => exact ⟨hk.symm, by simp [writeAt]⟩
          | succ k =>
            simp only [Filed] at hfp
            rw [if_neg (by simp), hfp.2]
            refine put pid _ ⟨root, session, fds, .closeFile fd⟩ _ hp rfl (others pid _ _ hp trivial) ?_
            simp only [Filed, Option.map_some, hfp.1, writeAt]
            simp
      | closeFile fd => exact keep _ rfl hfp
      | bind =>
        simp only [World.act]
        split
        · exact keep _ rfl trivial
        · exact keep _ rfl hfp
      | serving => exact ⟨hs, hf, fun q p h => ⟨p, h⟩⟩
      | leave => exact keep _ rfl trivial
      | exited s => exact ⟨hs, hf, fun q p h => ⟨p, h⟩⟩

theorem starts_cons (e : Event) (h : List Event) : starts (e :: h) = (match e with | .start .. => 1 | _ => 0) + starts h := by
  unfold starts
  cases e <;> simp <;> omega

theorem filed_fold (h : List Event) : ∀ (w : World), Inv w.procs w.next → (∀ a b p q, w.procs a = some p → w.procs b = some q → p.root = q.root) →
    (∀ pid p, w.procs pid = some p → Filed pid w.file p.point) → (starts h = 0 ∨ starts h ≤ 1 ∧ ∀ q, w.procs q = none) →
    ∀ pid p, (h.foldl World.step w).procs pid = some p → Filed pid (h.foldl World.step w).file p.point := by
  induction h with
  | nil => exact fun w _ _ hf _ => hf
  | cons e h ih =>
    intro w hi hs hf hn
    rw [starts_cons] at hn
    have he : (∀ s fds, e ≠ .start s fds) ∨ ∀ q, w.procs q = none := by
      rcases hn with hn | hn
      · left; rintro s fds rfl; simp at hn
      · exact .inr hn.2
    obtain ⟨h1, h2, _⟩ := filed_step hi hs hf e he
    refine ih _ (hi.step e) h1 h2 ?_
    rcases hn with hn | hn
    · left; omega
    · by_cases hst : ∃ s fds, e = .start s fds
      · obtain ⟨s, fds, rfl⟩ := hst
        left
        have := hn.1
        simp only at this
        omega
      · right
        refine ⟨by omega, fun q => ?_⟩
        cases e with
        | start s fds => exact absurd ⟨s, fds, rfl⟩ hst
        | turn pid f => simp only [World.step, hn.2 pid]; exact hn.2 q
        | stop pid => simp only [World.step, hn.2 pid]; exact hn.2 q

/-- C109: where one server is started, the file holds its process number and an end of line when it asks for the port and as long as it serves. -/
theorem C109_file_partial (first : Nat) (file : Option Str) (h : List Event) (h1 : starts h ≤ 1) (pid : Nat) (p : Proc)
    (hp : (World.after first file h).procs pid = some p) (hpt : p.point = .bind ∨ p.point = .serving) :
    (World.after first file h).file = some (digits pid ++ ['\n']) := by
  have := filed_fold h ⟨fun _ => none, first, file, none⟩ ⟨by simp, by simp, by simp, by simp, by simp⟩ (by simp) (by simp) (.inr ⟨h1, by simp⟩) pid p hp
  rcases hpt with hpt | hpt <;> simp only [hpt, Filed] at this <;> exact this

/-! ### A start without failures -/

/-- The turns of a start without failures, for the three processes. -/
def turns (a : Nat) : List Event :=
  .turn a false :: .turn (a + 1) false :: .turn (a + 1) false :: List.replicate 13 (.turn (a + 2) false)

/-- The machine with one process at a point, whatever its descriptors. -/
def Is (procs : Nat → Option Proc) (next pid root : Nat) (se : Session) (file : Option Str) (l : Option Nat) (pt : Point) (w : World) : Prop :=
  ∃ fds, w = ⟨fun q => if q = pid then some ⟨root, se, fds, pt⟩ else procs q, next, file, l⟩

/-- A turn that keeps the session. -/
theorem Is.turn {procs next pid root se file l pt w} (h : Is procs next pid root se file l pt w) {file' l' pt'}
    (ha : ∀ fds, ∃ fds', World.act ⟨fun q => if q = pid then some ⟨root, se, fds, pt⟩ else procs q, next, file, l⟩ pid ⟨root, se, fds, pt⟩ false =
      { (⟨fun q => if q = pid then some ⟨root, se, fds, pt⟩ else procs q, next, file, l⟩ : World).put pid ⟨root, se, fds', pt'⟩ with file := file', listening := l' }) :
    Is procs next pid root se file' l' pt' (w.step (.turn pid false)) := by
  obtain ⟨fds, rfl⟩ := h
  obtain ⟨fds', ha⟩ := ha fds
  refine ⟨fds', ?_⟩
  simp only [World.step, if_true]
  rw [ha]
  simp only [World.put]
  congr 1
  funext q
  by_cases h : q = pid <;> simp [h]

/-- The turns after the second fork. -/
theorem Is.serves {procs next pid root se file w} (h : Is procs next pid root se file none (.close 0) w) :
    Is procs next pid root se (some (digits pid ++ ['\n'])) (some pid) .serving ((List.replicate 13 (Event.turn pid false)).foldl World.step w) := by
  have hd := digits_length pid
  simp only [List.replicate, List.foldl_cons, List.foldl_nil]
  have h := h.turn (file' := file) (l' := none) (pt' := .close 1) (fun fds => ⟨_, rfl⟩)
  have h := h.turn (file' := file) (l' := none) (pt' := .close 2) (fun fds => ⟨_, rfl⟩)
  have h := h.turn (file' := file) (l' := none) (pt' := .open) (fun fds => ⟨_, rfl⟩)
  generalize ((w.step (Event.turn pid false)).step (Event.turn pid false)).step (Event.turn pid false) = w' at h ⊢
  obtain ⟨fds, rfl⟩ := h
  have h : Is procs next pid root se file none (.dup fds.lowest 0) (World.step ⟨fun q => if q = pid then some ⟨root, se, fds, .open⟩ else procs q, next, file, none⟩ (.turn pid false)) := by
    refine ⟨fds.put fds.lowest (some .devNull), ?_⟩
    simp only [World.step, if_true, World.act, World.put, Bool.false_eq_true, if_false]
    congr 1
    funext q
    by_cases h : q = pid <;> simp [h]
  generalize fds.lowest = fd at h
  have h := h.turn (file' := file) (l' := none) (pt' := .dup fd 1) (fun fds => ⟨_, rfl⟩)
  have h := h.turn (file' := file) (l' := none) (pt' := .dup fd 2) (fun fds => ⟨_, rfl⟩)
  have h := h.turn (file' := file) (l' := none) (pt' := .drop fd) (fun fds => ⟨_, rfl⟩)
  have h := h.turn (file' := file) (l' := none) (pt' := .create) (fun fds => ⟨_, rfl⟩)
  generalize (((((World.step _ _).step (Event.turn pid false)).step (Event.turn pid false)).step (Event.turn pid false)).step (Event.turn pid false)) = w' at h ⊢
  obtain ⟨fds', rfl⟩ := h
  have h : Is procs next pid root se (some []) none (.write fds'.lowest 0) (World.step ⟨fun q => if q = pid then some ⟨root, se, fds', .create⟩ else procs q, next, file, none⟩ (.turn pid false)) := by
    refine ⟨fds'.put fds'.lowest (some .pidFile), ?_⟩
    simp only [World.step, if_true, World.act, World.put, Bool.false_eq_true, if_false]
    congr 1
    funext q
    by_cases h : q = pid <;> simp [h]
  generalize fds'.lowest = fd' at h
  have h := h.turn (file' := some (digits pid)) (l' := none) (pt' := .write fd' (digits pid).length) (fun fds => ⟨fds, by simp [World.act, World.put, writeAt]⟩)
  have h := h.turn (file' := some (digits pid ++ ['\n'])) (l' := none) (pt' := .closeFile fd') (fun fds => ⟨fds, by simp [World.act, World.put, writeAt, hd]⟩)
  have h := h.turn (file' := some (digits pid ++ ['\n'])) (l' := none) (pt' := .bind) (fun fds => ⟨_, rfl⟩)
  exact h.turn (fun fds => ⟨_, rfl⟩)

/-- C109: a start for a free port, without failures and without turns of others, serves: the process number is in the file and the command has only to end with status 0. -/
theorem C109_serves (w : World) (s : Nat) (fds : Fds) (hl : w.listening = none) :
    let w' := (Event.start s fds :: turns w.next).foldl World.step w
    w'.listening = some (w.next + 2) ∧ w'.file = some (digits (w.next + 2) ++ ['\n']) ∧ (∃ p, w'.procs (w.next + 2) = some p ∧ p.point = .serving ∧ p.root = w.next) ∧
    (∃ p, w'.procs w.next = some p ∧ p.root = w.next ∧ p.point = .leave) ∧ ∀ q, q ≠ w.next → q ≠ w.next + 1 → q ≠ w.next + 2 → w'.procs q = w.procs q := by
  obtain ⟨procs, next, file, l⟩ := w
  simp only at hl; subst hl
  have n2 : next ≠ next + 2 := by omega
  have n3 : next + 1 ≠ next + 2 := by omega
  have h : Is (fun q => if q = next + 1 then some ⟨next, .ledBy (next + 1), fds, .leave⟩ else if q = next then some ⟨next, .users s, fds, .leave⟩ else procs q)
      (next + 3) (next + 2) next (.ledBy (next + 1)) file none (.close 0)
      ([Event.start s fds, .turn next false, .turn (next + 1) false, .turn (next + 1) false].foldl World.step ⟨procs, next, file, none⟩) := by
    refine ⟨fds, ?_⟩
    simp only [List.foldl_cons, List.foldl_nil, World.step, World.put, World.act]
    simp
    funext q
    by_cases h2 : q = next + 2
    · simp [h2]
    · by_cases h1 : q = next + 1
      · simp [h1]
      · by_cases h0 : q = next
        · subst h0; simp [n2]
        · simp [h0, h1, h2]
  obtain ⟨fds', h⟩ := h.serves
  have e : (Event.start s fds :: turns next).foldl World.step ⟨procs, next, file, none⟩ =
    (List.replicate 13 (Event.turn (next + 2) false)).foldl World.step
      ([Event.start s fds, .turn next false, .turn (next + 1) false, .turn (next + 1) false].foldl World.step ⟨procs, next, file, none⟩) := rfl
  simp only [e, h]
  refine ⟨trivial, trivial, ⟨⟨next, .ledBy (next + 1), fds', .serving⟩, by simp, rfl, rfl⟩, ⟨⟨next, .users s, fds, .leave⟩, by simp, rfl, rfl⟩, ?_⟩
  intro q h0 h1 h2
  simp [h0, h1, h2]

/-- C109 fails where the port is taken: the status of the command is 0 although no server runs, and the file names a process that has ended. -/
theorem C109_status_fails : ∃ h, starts h = 1 ∧ (∃ p, (World.after 100 none h).procs 100 = some p ∧ p.root = 100 ∧ p.point = .exited (some 0)) ∧
    (∀ e, ((World.after 100 none h).step (.turn 102 e)).listening = none) ∧ (∃ p, (World.after 100 none h).procs 102 = some p ∧ p.point = .exited (some 1)) ∧
    (World.after 100 none h).file = some c!"102\n" := by
  refine ⟨.start 1 [] :: (turns 100).dropLast ++ [.turn 100 false, .turn 102 true], rfl, ⟨_, rfl, rfl, rfl⟩, ?_, ⟨_, rfl, rfl⟩, by decide +kernel⟩
  intro e; cases e <;> rfl

/-- C109 fails where a second server is started for the same port: it ends, but the file names it instead of the server that runs. -/
theorem C109_second_start : ∃ h, (∃ p, (World.after 100 none h).procs 102 = some p ∧ p.point = .serving) ∧
    (∃ p, (World.after 100 none h).procs 105 = some p ∧ p.point = .exited (some 1)) ∧ (World.after 100 none h).file = some c!"105\n" ∧
    (∃ p, (World.after 100 none h).procs 103 = some p ∧ p.root = 103 ∧ p.point = .exited (some 0)) :=
  ⟨.start 1 [] :: turns 100 ++ .start 1 [] :: turns 103 ++ [.turn 103 false], ⟨_, rfl, rfl⟩, ⟨_, rfl, rfl⟩, by decide +kernel, ⟨_, rfl, rfl, rfl⟩⟩

/-- C109: after the server has ended the file is still there. -/
theorem C109_file_stays (w : World) (pid : Nat) : (w.step (.stop pid)).file = w.file := by
  simp only [World.step]
  split
  · split <;> rfl
  · rfl

example : starts (.start 1 [some (.inherited 0), some (.inherited 1), some (.inherited 2)] :: turns 100) ≤ 1 ∧
    ∃ p, (World.after 100 none (.start 1 [some (.inherited 0), some (.inherited 1), some (.inherited 2)] :: turns 100)).procs 102 = some p ∧ p.point = .serving ∧
      p.fds = [some .socket, some .devNull, some .devNull] := ⟨by decide, _, rfl, rfl, rfl⟩
example : ∃ p, (World.after 100 none [.start 1 [], .turn 100 true]).procs 100 = some p ∧ p.root = 100 ∧ p.point = .exited (some 1) := ⟨_, rfl, rfl, rfl⟩

end Daemon
