import Verif.Proofs.Threads
import Verif.Proofs.MessageSteps

/-
Schedules of threads: every thread does what it would do alone.
-/
namespace Mpc
open Exec Spec World
variable {k : Kind} {owner home : Nat → Nat} {sp : Speaker k} {base : Nat → World k}

namespace Threads

/-- what `begin` gives, the memory left aside -/
abbrev Begun (k : Kind) := World k × List Logger.Op × (Option k.Out × List Msg) × List Access

/-- corresponding first steps of an action -/
structure BStep (mine : Nat → Prop) (φ : Nat → Nat → Prop) (w : World k) (r r' : Begun k) : Prop where
  out : r.2.2.1 = r'.2.2.1
  ops : r.2.1 = r'.2.1
  sim : ∃ φ', Sim mine φ' r.1 r'.1 ∧ ∀ p p', φ' p p' → φ p p' ∨ p = w.fresh

theorem messages_sim {mine : Nat → Prop} {φ : Nat → Nat → Prop} {w w' : World k} (h : Sim mine φ w w') {op : WOp k}
    (hop : ∀ i ∈ involved op, mine i) (out : Option k.Out) (e : Said) :
    LogWorld.messages sp w op out e = LogWorld.messages sp w' op out e := by
  unfold LogWorld.messages
  cases op with
  | call i op => simp only [h.view (hop i (by simp [involved]))]
  | _ => rfl

theorem begin_sim {mine : Nat → Prop} {φ : Nat → Nat → Prop} {w w' : World k} (h : Sim mine φ w w') {a : LAct k}
    (ha : ∀ i ∈ names a, mine i) : Alike (BStep mine φ w) (begin sp w a) (begin sp w' a) := by
  cases a with
  | act op e =>
    have hs := step_sim h (op := op) ha
    simp only [begin]
    cases h1 : w.step op with
    | error e => cases h2 : w'.step op with
      | error e' => rw [h1, h2] at hs; exact hs
      | ok r' => rw [h1, h2] at hs; exact hs.elim
    | ok r => cases h2 : w'.step op with
      | error e' => rw [h1, h2] at hs; exact hs.elim
      | ok r' =>
        rw [h1, h2] at hs
        have hm : LogWorld.messages sp w op r.2 e = LogWorld.messages sp w' op r'.2 e := by
          rw [hs.out]; exact messages_sim h ha _ _
        exact ⟨Prod.ext hs.out hm, congrArg (fun l => l.flatMap Msg.ops) hm, hs.sim⟩
  | setLoggerLevel i v =>
    simp only [begin, World.obj]
    rcases h.obj i (ha i (by simp [names])) with ⟨h1, h2⟩ | ⟨o, o', h1, h2, -⟩
    · rw [h1, h2]; exact rfl
    · rw [h1, h2]; exact ⟨rfl, rfl, φ, h, fun _ _ => .inl⟩
  | setLoggerPrefix i v =>
    simp only [begin, World.obj]
    rcases h.obj i (ha i (by simp [names])) with ⟨h1, h2⟩ | ⟨o, o', h1, h2, -⟩
    · rw [h1, h2]; exact rfl
    · rw [h1, h2]; exact ⟨rfl, rfl, φ, h, fun _ _ => .inl⟩
  | setStream os => exact ⟨rfl, rfl, φ, h, fun _ _ => .inl⟩
  | resetLog => exact ⟨rfl, rfl, φ, h, fun _ _ => .inl⟩

/-- what the first step of an action of thread `t` changes and accesses -/
structure BFramed (owner home : Nat → Nat) (t : Nat) (w : World k) (r : Begun k) : Prop where
  objs : ∀ i, owner i ≠ t → r.1.objs i = w.objs i
  heap : ∀ p, p < w.fresh → home p ≠ t → r.1.heap p = w.heap p
  fresh : w.fresh ≤ r.1.fresh
  homes : Homes owner (moved home w.fresh t) r.1
  inObj : ∀ i b, (⟨.obj i, b⟩ : Access) ∈ r.2.2.2 → owner i = t
  inOpt : ∀ p b, (⟨.opt p, b⟩ : Access) ∈ r.2.2.2 → moved home w.fresh t p = t ∧ p < r.1.fresh
  only : ∀ a ∈ r.2.2.2, ¬ OfLogger a.loc

theorem homes_moved {w : World k} {t : Nat} (h : Homes owner home w) : Homes owner (moved home w.fresh t) w := by
  have hm : ∀ {p}, p < w.fresh → moved home w.fresh t p = home p := fun hp => if_neg (by omega)
  exact ⟨fun i o ho => ⟨(hm (h.obj _ _ ho).2).trans (h.obj _ _ ho).1, (h.obj _ _ ho).2⟩,
    fun p c hc => ⟨(h.cell _ _ hc).1.trans (hm (h.cell _ _ hc).2).symm, (h.cell _ _ hc).2⟩⟩

theorem begin_framed {w : World k} {t : Nat} (h : Homes owner home w) {a : LAct k} (ha : ∀ i ∈ names a, owner i = t) {r}
    (hs : begin sp w a = .ok r) : BFramed owner home t w r := by
  cases a with
  | act op e =>
    simp only [begin, bind_eq_ok] at hs
    obtain ⟨q, hq, hs⟩ := hs
    cases hs
    have := step_framed h ha hq
    exact ⟨this.objs, this.heap, this.fresh, this.homes, this.inObj, this.inOpt, this.only⟩
  | setLoggerLevel i v =>
    simp only [begin, bind_eq_ok] at hs
    obtain ⟨q, -, hs⟩ := hs
    cases hs
    exact ⟨fun _ _ => rfl, fun _ _ _ => rfl, Nat.le_refl _, homes_moved h, fun _ _ h => (nomatch h), fun _ _ h => (nomatch h),
      fun _ h => (nomatch h)⟩
  | setLoggerPrefix i v =>
    simp only [begin, bind_eq_ok] at hs
    obtain ⟨q, -, hs⟩ := hs
    cases hs
    exact ⟨fun _ _ => rfl, fun _ _ _ => rfl, Nat.le_refl _, homes_moved h, fun _ _ h => (nomatch h), fun _ _ h => (nomatch h),
      fun _ h => (nomatch h)⟩
  | setStream os =>
    cases hs
    exact ⟨fun _ _ => rfl, fun _ _ _ => rfl, Nat.le_refl _, homes_moved h, fun _ _ h => (nomatch h), fun _ _ h => (nomatch h),
      fun _ h => (nomatch h)⟩
  | resetLog =>
    cases hs
    exact ⟨fun _ _ => rfl, fun _ _ _ => rfl, Nat.le_refl _, homes_moved h, fun _ _ h => (nomatch h), fun _ _ h => (nomatch h),
      fun _ h => (nomatch h)⟩

/-- a program alone, the log left aside -/
def mute (sp : Speaker k) (w : World k) : List (LAct k) → Exec (World k × List (Option k.Out × List Msg))
  | [] => .ok (w, [])
  | a :: as => do
    let r ← begin sp w a
    let s ← mute sp r.1 as
    return (s.1, r.2.2.1 :: s.2)

theorem mute_append (xs ys : List (LAct k)) : ∀ w : World k, mute sp w (xs ++ ys) =
    (mute sp w xs >>= fun q => mute sp q.1 ys >>= fun s => .ok (s.1, q.2 ++ s.2)) := by
  induction xs with
  | nil =>
    intro w
    simp only [List.nil_append, mute, ok_bind]
    cases mute sp w ys <;> rfl
  | cons x xs ih =>
    intro w
    simp only [List.cons_append, mute]
    cases begin sp w x with
    | error e => rfl
    | ok r =>
      simp only [ok_bind, ih]
      cases mute sp r.1 xs with
      | error e => rfl
      | ok q =>
        simp only [ok_bind]
        cases h : mute sp q.1 ys with
        | error e =>
          have : mute sp (Prod.fst q) ys = Except.error e := h
          simp only [this, error_bind, pure, Except.pure, ok_bind]
        | ok s =>
          have : mute sp (Prod.fst q) ys = Except.ok s := h
          simp only [this, ok_bind, pure, Except.pure, List.cons_append]

/-- with a stream, a program alone behaves the same whether the log is left aside or not -/
theorem logWorld_step {w : World k} {l : Logger} (hl : l.os ≠ none) {a : LAct k} (ha : a ≠ .setStream none) :
    (∀ e, begin sp w a = .error e → LogWorld.step sp ⟨w, l⟩ a = .error e) ∧
    ∀ r, begin sp w a = .ok r → ∃ l', LogWorld.step sp ⟨w, l⟩ a = .ok (⟨r.1, l'⟩, r.2.2.1) ∧ l'.os ≠ none := by
  cases a with
  | act op e =>
    cases h : w.step op with
    | error f =>
      simp only [begin, LogWorld.step, h, error_bind]
      exact ⟨fun e he => (by cases he; rfl), fun r hr => (by cases hr)⟩
    | ok q =>
      simp only [begin, h, ok_bind]
      refine ⟨fun e he => (by cases he), fun r hr => ?_⟩
      cases hr
      obtain ⟨l', h1, h2⟩ := LogWorld.step_total (sp := sp) (w := ⟨w, l⟩) (e := e) h hl
      exact ⟨l', h1, by rw [h2]; exact hl⟩
  | setLoggerLevel i v =>
    simp only [begin, LogWorld.step, Logger.step]
    cases w.obj i with
    | error f => exact ⟨fun e he => (by cases he; rfl), fun r hr => (by cases hr)⟩
    | ok o => exact ⟨fun e he => (by cases he), fun r hr => (by cases hr; exact ⟨_, rfl, hl⟩)⟩
  | setLoggerPrefix i v =>
    simp only [begin, LogWorld.step, Logger.step]
    cases w.obj i with
    | error f => exact ⟨fun e he => (by cases he; rfl), fun r hr => (by cases hr)⟩
    | ok o => exact ⟨fun e he => (by cases he), fun r hr => (by cases hr; exact ⟨_, rfl, hl⟩)⟩
  | setStream os =>
    refine ⟨fun e he => (by cases he), fun r hr => ?_⟩
    cases hr
    refine ⟨_, rfl, ?_⟩
    cases os with
    | none => exact absurd rfl ha
    | some s => exact fun h => (by cases h)
  | resetLog =>
    refine ⟨fun e he => (by cases he), fun r hr => ?_⟩
    cases hr
    exact ⟨_, rfl, hl⟩

theorem logWorld_run : ∀ {acts : List (LAct k)} {w : World k} {l : Logger}, l.os ≠ none → .setStream none ∉ acts →
    (∀ e, mute sp w acts = .error e → LogWorld.run sp ⟨w, l⟩ acts = .error e) ∧
    ∀ r, mute sp w acts = .ok r → ∃ l', LogWorld.run sp ⟨w, l⟩ acts = .ok (⟨r.1, l'⟩, r.2) ∧ l'.os ≠ none
  | [], w, l, hl, _ => ⟨fun e he => (by cases he), fun r hr => (by cases hr; exact ⟨l, rfl, hl⟩)⟩
  | a :: as, w, l, hl, ha => by
    obtain ⟨h1, h2⟩ := logWorld_step (sp := sp) (w := w) hl (a := a) (fun h => ha (h ▸ List.mem_cons_self))
    simp only [mute, LogWorld.run]
    cases hb : begin sp w a with
    | error f =>
      rw [h1 f hb]
      exact ⟨fun e he => (by cases he; rfl), fun r hr => (by cases hr)⟩
    | ok q =>
      obtain ⟨l', h3, h4⟩ := h2 q hb
      rw [h3]
      simp only [ok_bind]
      obtain ⟨g1, g2⟩ := logWorld_run (acts := as) (w := q.1) h4 (fun h => ha (List.mem_cons_of_mem _ h))
      cases hq : mute sp q.1 as with
      | error f =>
        rw [g1 f hq]
        exact ⟨fun e he => (by cases he; rfl), fun r hr => (by cases hr)⟩
      | ok s =>
        obtain ⟨l'', g3, g4⟩ := g2 s hq
        rw [g3]
        refine ⟨fun e he => (by cases he), fun r hr => ?_⟩
        cases hr
        exact ⟨l'', rfl, g4⟩

/-- what holds after every schedule; `base t` is the world in which thread `t` would begin alone -/
structure Inv (sp : Speaker k) (owner : Nat → Nat) (base : Nat → World k) (progs : Nat → List (LAct k)) (s : Threads k) (home : Nat → Nat) : Prop where
  homes : Homes owner home s.world
  alone : ∀ t, ∃ done w' φ, progs t = done ++ (s.threads t).todo ∧ mute sp (base t) done = .ok (w', (s.threads t).outs) ∧
    Sim (fun i => owner i = t) φ s.world w' ∧ ∀ p p', φ p p' → home p = t

/-- the accesses to controllers of a step are those of its thread -/
def Local (owner home : Nat → Nat) (fresh : Nat) (x : Nat × List Access) : Prop :=
  (∀ i b, (⟨.obj i, b⟩ : Access) ∈ x.2 → owner i = x.1) ∧ ∀ p b, (⟨.opt p, b⟩ : Access) ∈ x.2 → home p = x.1 ∧ p < fresh

theorem inv_start {l : Logger} {progs : Nat → List (LAct k)} : Inv sp owner (fun _ => World.empty k) progs (start l progs) home :=
  ⟨homes_empty, fun t => ⟨[], World.empty k, fun _ _ => False, rfl, rfl,
    ⟨fun i _ => .inl ⟨rfl, rfl⟩, fun _ _ h => h.elim, fun _ _ _ _ h => h.elim⟩, fun _ _ h => h.elim⟩⟩

theorem logger_touches {l : Logger} {op : Logger.Op} {a : Access} (h : a ∈ l.touches op) : OfLogger a.loc := by
  cases op with
  | log t =>
    simp only [Logger.touches, List.cons_append, List.nil_append, List.mem_cons] at h
    rcases h with rfl | rfl | rfl | h
    · trivial
    · trivial
    · trivial
    · split at h
      · simp only [List.mem_cons] at h
        rcases h with rfl | rfl | h
        · trivial
        · trivial
        · split at h
          · simp only [List.mem_singleton] at h
            subst h; trivial
          · exact (nomatch h)
      · exact (nomatch h)
  | stream x =>
    simp only [Logger.touches, List.cons_append, List.nil_append, List.mem_cons] at h
    rcases h with rfl | rfl | h
    · trivial
    · trivial
    · split at h
      · simp only [List.mem_cons] at h
        rcases h with rfl | h
        · trivial
        · split at h
          · simp only [List.mem_singleton] at h
            subst h; trivial
          · exact (nomatch h)
      · exact (nomatch h)
  | reset =>
    simp only [Logger.touches, List.mem_cons, List.not_mem_nil, or_false] at h
    rcases h with rfl | rfl <;> trivial
  | _ =>
    simp only [Logger.touches, List.mem_singleton] at h
    subst h; trivial

theorem put_self {s : Threads k} {t : Nat} {th : Thread k} : s.put t th t = th := if_pos rfl
theorem put_ne {s : Threads k} {t u : Nat} {th : Thread k} (h : u ≠ t) : s.put t th u = s.threads u := if_neg h

/-- one step of a schedule -/
theorem step_inv {progs : Nat → List (LAct k)} (ho : Owned owner progs) {s : Threads k} (h : Inv sp owner base progs s home) {t : Nat}
    {r} (hs : s.step sp t = .ok r) : ∃ home', Inv sp owner base progs r.1 home' ∧ (∀ p < s.world.fresh, home' p = home p) ∧
      s.world.fresh ≤ r.1.world.fresh ∧ Local owner home' r.1.world.fresh (t, r.2) := by
  unfold step at hs
  cases hp : (s.threads t).pending with
  | cons op ops =>
    rw [hp] at hs
    simp only [bind_eq_ok] at hs
    obtain ⟨l, hl, hs⟩ := hs
    cases hs
    refine ⟨home, ⟨h.homes, fun u => ?_⟩, fun _ _ => rfl, Nat.le_refl _, fun i b hb => (logger_touches hb).elim,
      fun p b hb => (logger_touches hb).elim⟩
    obtain ⟨done, w', φ, h1, h2, h3, h4⟩ := h.alone u
    by_cases hu : u = t
    · subst hu
      exact ⟨done, w', φ, by simp only [put_self]; exact h1, by simp only [put_self]; exact h2, h3, h4⟩
    · exact ⟨done, w', φ, by simp only [put_ne hu]; exact h1, by simp only [put_ne hu]; exact h2, h3, h4⟩
  | nil =>
    rw [hp] at hs
    cases htd : (s.threads t).todo with
    | nil =>
      rw [htd] at hs
      cases hs
      exact ⟨home, h, fun _ _ => rfl, Nat.le_refl _, fun _ _ h => (nomatch h), fun _ _ h => (nomatch h)⟩
    | cons a as =>
      rw [htd] at hs
      simp only [bind_eq_ok] at hs
      obtain ⟨q, hq, hs⟩ := hs
      cases hs
      have ha : ∀ i ∈ names a, owner i = t := by
        obtain ⟨done, w', φ, h1, -⟩ := h.alone t
        exact ho t a (by rw [h1, htd]; simp)
      have hf := begin_framed h.homes ha hq
      refine ⟨moved home s.world.fresh t, ⟨hf.homes, fun u => ?_⟩, fun p hp => if_neg (by omega), hf.fresh, hf.inObj, hf.inOpt⟩
      obtain ⟨done, w', φ, h1, h2, h3, h4⟩ := h.alone u
      by_cases hu : u = t
      · subst hu
        have hb := begin_sim (sp := sp) h3 ha
        rw [hq] at hb
        cases hb' : begin sp w' a with
        | error e => rw [hb'] at hb; exact hb.elim
        | ok q' =>
          rw [hb'] at hb
          obtain ⟨φ', hφ, hh⟩ := hb.sim
          refine ⟨done ++ [a], q'.1, φ', ?_, ?_, hφ, fun p p' hp => ?_⟩
          · simp only [put_self]; rw [h1, htd]; simp
          · simp only [put_self]
            rw [mute_append, h2]
            simp only [ok_bind, mute, hb']
            rw [hb.out]
            rfl
          · rcases hh p p' hp with hp | hp
            · have := (h3.cell _ _ hp).1
              exact (if_neg (by omega)).trans (h4 _ _ hp)
            · exact if_pos hp
      · refine ⟨done, w', φ, by simp only [put_ne hu]; exact h1, by simp only [put_ne hu]; exact h2, ?_, fun p p' hp => ?_⟩
        · exact h3.frame (fun i hi => hf.objs i (by rw [hi]; exact hu))
            (fun p p' hp => hf.heap p (h3.cell _ _ hp).1 (by rw [h4 _ _ hp]; exact hu)) hf.fresh
        · have := (h3.cell _ _ hp).1
          exact (if_neg (by omega)).trans (h4 _ _ hp)

/-- a whole schedule -/
theorem run_inv {progs : Nat → List (LAct k)} (ho : Owned owner progs) : ∀ {sched : List Nat} {s : Threads k} {home : Nat → Nat} {r},
    Inv sp owner base progs s home → s.run sp sched = .ok r → ∃ home', Inv sp owner base progs r.1 home' ∧
      (∀ p < s.world.fresh, home' p = home p) ∧ s.world.fresh ≤ r.1.world.fresh ∧
      ∀ x ∈ r.2, Local owner home' r.1.world.fresh x
  | [], s, home, r, h, hs => by
    cases hs
    exact ⟨home, h, fun _ _ => rfl, Nat.le_refl _, fun _ h => (nomatch h)⟩
  | t :: ts, s, home, r, h, hs => by
    simp only [run, bind_eq_ok] at hs
    obtain ⟨q, hq, z, hz, hs⟩ := hs
    cases hs
    obtain ⟨home1, a1, a2, a3, a4⟩ := step_inv ho h hq
    obtain ⟨home2, b1, b2, b3, b4⟩ := run_inv ho a1 hz
    refine ⟨home2, b1, fun p hp => (b2 p (by omega)).trans (a2 p hp), Nat.le_trans a3 b3, fun x hx => ?_⟩
    rcases List.mem_cons.1 hx with rfl | hx
    · exact ⟨a4.1, fun p b hb => ⟨(b2 p (a4.2 p b hb).2).trans (a4.2 p b hb).1, by
        have := (a4.2 p b hb).2
        have : q.1.world.fresh ≤ z.1.world.fresh := b3
        show p < z.1.world.fresh
        omega⟩⟩
    · exact b4 x hx

/-- induction over a schedule -/
theorem run_induct {P : Threads k → List (Nat × List Access) → Prop}
    (hP : ∀ s pre t r, P s pre → s.step sp t = .ok r → P r.1 (pre ++ [(t, r.2)])) :
    ∀ {sched : List Nat} {s : Threads k} {pre r}, P s pre → s.run sp sched = .ok r → P r.1 (pre ++ r.2)
  | [], s, pre, r, h, hs => by
    cases hs
    rw [List.append_nil]
    exact h
  | t :: ts, s, pre, r, h, hs => by
    simp only [run, bind_eq_ok] at hs
    obtain ⟨q, hq, z, hz, hs⟩ := hs
    cases hs
    have := run_induct hP (hP _ _ _ _ h hq) hz
    rwa [List.append_assoc] at this

/-- the three kinds of steps -/
theorem step_cases {s : Threads k} {t : Nat} {r} (hs : s.step sp t = .ok r) :
    (∃ op ops l, (s.threads t).pending = op :: ops ∧ s.log.step op = .ok l ∧
      r = (⟨s.world, l, s.put t { s.threads t with pending := ops }⟩, s.log.touches op)) ∨
    ((s.threads t).pending = [] ∧ (s.threads t).todo = [] ∧ r = (s, [])) ∨
    ∃ a as q, (s.threads t).pending = [] ∧ (s.threads t).todo = a :: as ∧ begin sp s.world a = .ok q ∧
      r = (⟨q.1, s.log, s.put t ⟨as, q.2.1, (s.threads t).outs ++ [q.2.2.1]⟩⟩, q.2.2.2) := by
  unfold step at hs
  cases hp : (s.threads t).pending with
  | cons op ops =>
    rw [hp] at hs
    simp only [bind_eq_ok] at hs
    obtain ⟨l, hl, hs⟩ := hs
    cases hs
    exact .inl ⟨op, ops, l, rfl, hl, rfl⟩
  | nil =>
    rw [hp] at hs
    cases htd : (s.threads t).todo with
    | nil =>
      rw [htd] at hs
      cases hs
      exact .inr (.inl ⟨rfl, rfl, rfl⟩)
    | cons a as =>
      rw [htd] at hs
      simp only [bind_eq_ok] at hs
      obtain ⟨q, hq, hs⟩ := hs
      cases hs
      exact .inr (.inr ⟨a, as, q, rfl, rfl, hq, rfl⟩)

/-- the operations on the logger of an action -/
theorem begin_ops {w : World k} {a : LAct k} {q} (h : begin sp w a = .ok q) :
    (¬ SetsLog a → q.2.1 = q.2.2.1.2.flatMap Msg.ops) ∧ (SetsLog a → q.2.2.1.2 = []) ∧
      (a ≠ .setStream none → .setStream none ∉ q.2.1) := by
  cases a with
  | act op e =>
    simp only [begin, bind_eq_ok] at h
    obtain ⟨r, -, h⟩ := h
    cases h
    refine ⟨fun _ => rfl, fun h => h.elim, fun _ hm => ?_⟩
    obtain ⟨m, -, hm⟩ := List.mem_flatMap.1 hm
    simp [Msg.ops] at hm
  | setLoggerLevel i v =>
    simp only [begin, bind_eq_ok] at h
    obtain ⟨r, -, h⟩ := h
    cases h
    exact ⟨fun h => absurd trivial h, fun _ => rfl, fun _ hm => by simp at hm⟩
  | setLoggerPrefix i v =>
    simp only [begin, bind_eq_ok] at h
    obtain ⟨r, -, h⟩ := h
    cases h
    exact ⟨fun h => absurd trivial h, fun _ => rfl, fun _ hm => by simp at hm⟩
  | setStream os =>
    cases h
    refine ⟨fun h => absurd trivial h, fun _ => rfl, fun hn hm => ?_⟩
    simp only [List.mem_singleton] at hm
    cases hm
    exact hn rfl
  | resetLog =>
    cases h
    exact ⟨fun h => absurd trivial h, fun _ => rfl, fun _ hm => by simp at hm⟩

/-- the actions to come are those of the program -/
theorem todo_mem {w : LogWorld k} {progs : Nat → List (LAct k)} {sched : List Nat} {r}
    (hr : (fork w progs).run sp sched = .ok r) : ∀ t, ∀ a ∈ (r.1.threads t).todo, a ∈ progs t := by
  refine run_induct (sp := sp) (P := fun s _ => ∀ t, ∀ a ∈ (s.threads t).todo, a ∈ progs t) ?_ (pre := []) (fun t a h => h) hr
  intro s pre t q h hs u a ha
  rcases step_cases hs with ⟨op, ops, l, h1, h2, rfl⟩ | ⟨h1, h2, rfl⟩ | ⟨b, as, z, h1, h2, h3, rfl⟩
  · by_cases hu : u = t
    · subst hu; simp only [put_self] at ha; exact h u a ha
    · simp only [put_ne hu] at ha; exact h u a ha
  · exact h u a ha
  · by_cases hu : u = t
    · subst hu; simp only [put_self] at ha; exact h u a (by rw [h2]; exact List.mem_cons_of_mem _ ha)
    · simp only [put_ne hu] at ha; exact h u a ha

/-- with a stream, every operation on the logger succeeds -/
theorem logger_step_total {l : Logger} (hl : l.os ≠ none) {op : Logger.Op} (ho : op ≠ .setStream none) :
    ∃ l', l.step op = .ok l' ∧ l'.os ≠ none := by
  obtain ⟨l', h⟩ := exec_total [op] l hl (by simpa using fun h => ho h.symm)
  simp only [Logger.exec, bind_eq_ok] at h
  obtain ⟨l1, h1, h⟩ := h
  cases h
  refine ⟨_, h1, ?_⟩
  cases op with
  | log t => rw [log_text h1]; exact hl
  | stream x => rw [stream_text h1]; exact hl
  | setStream os =>
    cases h1
    cases os with
    | none => exact absurd rfl ho
    | some s => exact fun h => (by cases h)
  | _ => cases h1; exact hl

/-- a state from which every thread can go on -/
structure Good (sp : Speaker k) (owner : Nat → Nat) (base : Nat → World k) (progs : Nat → List (LAct k)) (s : Threads k) : Prop where
  inv : ∃ home, Inv sp owner base progs s home
  os : s.log.os ≠ none
  pending : ∀ t, .setStream none ∉ (s.threads t).pending

theorem good_start {progs : Nat → List (LAct k)} {l : Logger} (hl : l.os ≠ none) : Good sp owner (fun _ => World.empty k) progs (start l progs) :=
  ⟨⟨fun _ => 0, inv_start⟩, hl, fun _ h => (nomatch h)⟩

theorem step_total {progs : Nat → List (LAct k)} (ho : Owned owner progs) (hk : KeepsStream progs)
    (ha : ∀ t, ∃ q, mute sp (base t) (progs t) = .ok q) {s : Threads k} (hg : Good sp owner base progs s) (t : Nat) :
    ∃ r, s.step sp t = .ok r ∧ Good sp owner base progs r.1 := by
  obtain ⟨⟨home, h⟩, hl, hp⟩ := hg
  have hstep : ∃ r, s.step sp t = .ok r ∧ r.1.log.os ≠ none ∧ ∀ u, .setStream none ∉ (r.1.threads u).pending := by
    unfold step
    cases hpt : (s.threads t).pending with
    | cons op ops =>
      have hne := hp t
      rw [hpt] at hne
      obtain ⟨l', h1, h2⟩ := logger_step_total hl (op := op) (fun h => hne (h ▸ List.mem_cons_self))
      simp only [h1, ok_bind]
      refine ⟨_, rfl, h2, fun u => ?_⟩
      by_cases hu : u = t
      · subst hu; simp only [put_self]; exact fun h => hne (List.mem_cons_of_mem _ h)
      · simp only [put_ne hu]; exact hp u
    | nil =>
      cases htd : (s.threads t).todo with
      | nil => exact ⟨_, rfl, hl, hp⟩
      | cons a as =>
        obtain ⟨done, w', φ, h1, h2, h3, h4⟩ := h.alone t
        have hna : ∀ i ∈ names a, owner i = t := ho t a (by rw [h1, htd]; simp)
        have hb := begin_sim (sp := sp) h3 hna
        obtain ⟨q, hq⟩ := ha t
        rw [h1, htd, mute_append, h2] at hq
        simp only [ok_bind, mute] at hq
        cases hb' : begin sp w' a with
        | error e => rw [hb'] at hq; cases hq
        | ok z =>
          rw [hb'] at hb
          cases hb2 : begin sp s.world a with
          | error e => rw [hb2] at hb; exact hb.elim
          | ok z' =>
            simp only [hb2, ok_bind]
            refine ⟨_, rfl, hl, fun u => ?_⟩
            by_cases hu : u = t
            · subst hu; simp only [put_self]
              exact (begin_ops hb2).2.2 (by rintro rfl; exact hk u (by rw [h1, htd]; simp))
            · simp only [put_ne hu]; exact hp u
  obtain ⟨r, h1, h2, h3⟩ := hstep
  obtain ⟨home', h4, -⟩ := step_inv ho h h1
  exact ⟨r, h1, ⟨home', h4⟩, h2, h3⟩

theorem run_cons {s : Threads k} {t : Nat} {ts : List Nat} {r q} (h : s.step sp t = .ok r) (hq : r.1.run sp ts = .ok q) :
    s.run sp (t :: ts) = .ok (q.1, (t, r.2) :: q.2) := by
  simp only [run, h, ok_bind, hq]
  rfl

/-- If every thread's program runs alone, every schedule runs. -/
theorem run_total {progs : Nat → List (LAct k)} (ho : Owned owner progs) (hk : KeepsStream progs)
    (ha : ∀ t, ∃ q, mute sp (base t) (progs t) = .ok q) : ∀ {sched : List Nat} {s : Threads k},
    Good sp owner base progs s → ∃ r, s.run sp sched = .ok r ∧ Good sp owner base progs r.1
  | [], s, h => ⟨_, rfl, h⟩
  | t :: ts, s, h => by
    obtain ⟨r, h1, h2⟩ := step_total ho hk ha h t
    obtain ⟨q, hq, h3⟩ := run_total ho hk ha (sched := ts) h2
    exact ⟨_, run_cons h1 hq, h3⟩

theorem run_append (xs ys : List Nat) : ∀ s : Threads k, s.run sp (xs ++ ys) =
    (s.run sp xs >>= fun q => q.1.run sp ys >>= fun z => .ok (z.1, q.2 ++ z.2)) := by
  induction xs with
  | nil =>
    intro s
    simp only [List.nil_append, run, ok_bind]
    cases s.run sp ys <;> rfl
  | cons x xs ih =>
    intro s
    simp only [List.cons_append, run]
    cases s.step sp x with
    | error e => rfl
    | ok r =>
      simp only [ok_bind, ih]
      cases r.1.run sp xs with
      | error e => rfl
      | ok q =>
        simp only [ok_bind]
        cases h : q.1.run sp ys with
        | error e =>
          have : run sp (Prod.fst q) ys = Except.error e := h
          simp only [this, error_bind, pure, Except.pure, ok_bind]
        | ok s =>
          have : run sp (Prod.fst q) ys = Except.ok s := h
          simp only [this, ok_bind, pure, Except.pure, List.cons_append]

/-- a thread can be brought to its end, without the others -/
theorem finish_one {progs : Nat → List (LAct k)} (ho : Owned owner progs) (hk : KeepsStream progs)
    (ha : ∀ t, ∃ q, mute sp (base t) (progs t) = .ok q) (t : Nat) : ∀ n m {s : Threads k}, Good sp owner base progs s →
      (s.threads t).todo.length = n → (s.threads t).pending.length = m → ∃ c r, s.run sp (List.replicate c t) = .ok r ∧
        Good sp owner base progs r.1 ∧ Finished r.1 t ∧ ∀ u, u ≠ t → r.1.threads u = s.threads u := by
  intro n
  induction n with
  | zero =>
    intro m
    induction m with
    | zero =>
      intro s hg h1 h2
      exact ⟨0, _, rfl, hg, ⟨List.length_eq_zero_iff.1 h1, List.length_eq_zero_iff.1 h2⟩, fun _ _ => rfl⟩
    | succ m ih =>
      intro s hg h1 h2
      obtain ⟨r, hr, hg'⟩ := step_total ho hk ha hg t
      rcases step_cases hr with ⟨op, ops, l, g1, g2, rfl⟩ | ⟨g1, -, rfl⟩ | ⟨b, as, z, g1, -, -, rfl⟩
      · rw [g1] at h2
        obtain ⟨c, q, hq, a1, a2, a3⟩ := ih hg' (by simp only [put_self]; exact h1) (by
          simp only [put_self]; simpa using h2)
        refine ⟨c + 1, _, run_cons hr hq, a1, a2, fun u hu => ?_⟩
        rw [a3 u hu]
        exact put_ne hu
      · rw [g1] at h2; cases h2
      · rw [g1] at h2; cases h2
  | succ n ihn =>
    intro m
    induction m with
    | zero =>
      intro s hg h1 h2
      obtain ⟨r, hr, hg'⟩ := step_total ho hk ha hg t
      rcases step_cases hr with ⟨op, ops, l, g1, g2, rfl⟩ | ⟨-, g1, rfl⟩ | ⟨b, as, z, g1, g2, -, rfl⟩
      · rw [g1] at h2; cases h2
      · rw [g1] at h1; cases h1
      · rw [g2] at h1
        obtain ⟨c, q, hq, a1, a2, a3⟩ := ihn _ hg' (by simp only [put_self]; simpa using h1) rfl
        refine ⟨c + 1, _, run_cons hr hq, a1, a2, fun u hu => ?_⟩
        rw [a3 u hu]
        exact put_ne hu
    | succ m ih =>
      intro s hg h1 h2
      obtain ⟨r, hr, hg'⟩ := step_total ho hk ha hg t
      rcases step_cases hr with ⟨op, ops, l, g1, g2, rfl⟩ | ⟨g1, -, rfl⟩ | ⟨b, as, z, g1, -, -, rfl⟩
      · rw [g1] at h2
        obtain ⟨c, q, hq, a1, a2, a3⟩ := ih hg' (by simp only [put_self]; exact h1) (by
          simp only [put_self]; simpa using h2)
        refine ⟨c + 1, _, run_cons hr hq, a1, a2, fun u hu => ?_⟩
        rw [a3 u hu]
        exact put_ne hu
      · rw [g1] at h2; cases h2
      · rw [g1] at h2; cases h2

/-- all threads below a bound can be brought to their end -/
theorem finish_all {progs : Nat → List (LAct k)} (ho : Owned owner progs) (hk : KeepsStream progs)
    (ha : ∀ t, ∃ q, mute sp (base t) (progs t) = .ok q) : ∀ n {s : Threads k}, Good sp owner base progs s →
      ∃ more r, s.run sp more = .ok r ∧ Good sp owner base progs r.1 ∧ (∀ t < n, Finished r.1 t) ∧
        ∀ u, n ≤ u → r.1.threads u = s.threads u := by
  intro n
  induction n with
  | zero => exact fun {s} hg => ⟨[], _, rfl, hg, fun t h => absurd h (by omega), fun _ _ => rfl⟩
  | succ n ih =>
    intro s hg
    obtain ⟨more, r, h1, h2, h3, h4⟩ := ih hg
    obtain ⟨c, q, g1, g2, g3, g4⟩ := finish_one ho hk ha n _ _ h2 rfl rfl
    refine ⟨more ++ List.replicate c n, (q.1, r.2 ++ q.2), by rw [run_append, h1]; simp only [ok_bind, g1], g2,
      fun t ht => ?_, fun u hu => ?_⟩
    · by_cases hn : t = n
      · subst hn; exact g3
      · have := h3 t (by omega)
        unfold Finished at this ⊢
        rw [g4 t hn]
        exact this
    · exact (g4 u (by omega)).trans (h4 u (by omega))

/-- a thread which has messages has written the type of a message, or is going to -/
theorem has_written {w : LogWorld k} {progs : Nat → List (LAct k)} {sched : List Nat} {r}
    (hr : (fork w progs).run sp sched = .ok r) (t : Nat) (hm : messagesOf r.1 t ≠ []) :
    (∃ x ∈ r.2, x.1 = t ∧ (⟨.type, true⟩ : Access) ∈ x.2) ∨ ∃ τ, .log τ ∈ (r.1.threads t).pending := by
  have := run_induct (sp := sp) (P := fun s tr => messagesOf s t ≠ [] → (∃ x ∈ tr, x.1 = t ∧ (⟨.type, true⟩ : Access) ∈ x.2) ∨
    ∃ τ, .log τ ∈ (s.threads t).pending) ?_ (pre := []) (fun h => absurd rfl h) hr
  · rw [List.nil_append] at this
    exact this hm
  intro s pre u q h hs hm
  rcases step_cases hs with ⟨op, ops, l, h1, h2, rfl⟩ | ⟨h1, h2, rfl⟩ | ⟨b, as, z, h1, h2, h3, rfl⟩
  · by_cases hu : t = u
    · subst hu
      simp only [messagesOf, put_self] at hm
      rcases h hm with ⟨x, hx, hx'⟩ | ⟨τ, hτ⟩
      · exact .inl ⟨x, List.mem_append_left _ hx, hx'⟩
      · rw [h1] at hτ
        rcases List.mem_cons.1 hτ with rfl | hτ
        · exact .inl ⟨_, List.mem_append_right _ List.mem_cons_self, rfl, by simp [Logger.touches]⟩
        · exact .inr ⟨τ, by simp only [put_self]; exact hτ⟩
    · simp only [messagesOf, put_ne hu] at hm ⊢
      rcases h hm with ⟨x, hx, hx'⟩ | hτ
      · exact .inl ⟨x, List.mem_append_left _ hx, hx'⟩
      · exact .inr hτ
  · rcases h hm with ⟨x, hx, hx'⟩ | hτ
    · exact .inl ⟨x, List.mem_append_left _ hx, hx'⟩
    · exact .inr hτ
  · by_cases hu : t = u
    · subst hu
      simp only [messagesOf, put_self, List.flatMap_append, List.flatMap_singleton] at hm ⊢
      by_cases hm' : messagesOf s t = []
      · have hz : z.2.2.1.2 ≠ [] := fun hz => hm (by rw [hz, List.append_nil]; exact hm')
        have hset : ¬ SetsLog b := fun hb => hz ((begin_ops h3).2.1 hb)
        have ho := (begin_ops h3).1 hset
        right
        cases hl : z.2.2.1.2 with
        | nil => exact absurd hl hz
        | cons m ms => exact ⟨m.type, by rw [ho, hl]; simp [Msg.ops]⟩
      · rcases h hm' with ⟨x, hx, hx'⟩ | ⟨τ, hτ⟩
        · exact .inl ⟨x, List.mem_append_left _ hx, hx'⟩
        · rw [h1] at hτ; exact (nomatch hτ)
    · simp only [messagesOf, put_ne hu] at hm ⊢
      rcases h hm with ⟨x, hx, hx'⟩ | hτ
      · exact .inl ⟨x, List.mem_append_left _ hx, hx'⟩
      · exact .inr hτ

/-- a thread without messages and settings does not access the logger -/
theorem stays_away {w : LogWorld k} {progs : Nat → List (LAct k)} (ho : Owned owner progs)
    (h0 : Inv sp owner base progs (fork w progs) home) {sched : List Nat} {r} (hr : (fork w progs).run sp sched = .ok r) (t : Nat) (hq : ∀ a ∈ progs t, ¬ SetsLog a) (hm : messagesOf r.1 t = []) :
    ∀ x ∈ r.2, x.1 = t → ∀ a ∈ x.2, ¬ OfLogger a.loc := by
  have := run_induct (sp := sp) (P := fun s tr => (∃ home, Inv sp owner base progs s home) ∧ (messagesOf s t = [] →
    (s.threads t).pending = [] ∧ ∀ x ∈ tr, x.1 = t → ∀ a ∈ x.2, ¬ OfLogger a.loc)) ?_ (pre := [])
    ⟨⟨home, h0⟩, fun _ => ⟨rfl, fun _ h => (nomatch h)⟩⟩ hr
  · rw [List.nil_append] at this
    exact (this.2 hm).2
  rintro s pre u q ⟨⟨home, hi⟩, h⟩ hs
  obtain ⟨home', hi', -⟩ := step_inv ho hi hs
  refine ⟨⟨home', hi'⟩, fun hm => ?_⟩
  rcases step_cases hs with ⟨op, ops, l, h1, h2, rfl⟩ | ⟨h1, h2, rfl⟩ | ⟨b, as, z, h1, h2, h3, rfl⟩
  · by_cases hu : t = u
    · subst hu
      simp only [messagesOf, put_self] at hm
      obtain ⟨g1, -⟩ := h hm
      rw [h1] at g1; cases g1
    · simp only [messagesOf, put_ne hu] at hm ⊢
      obtain ⟨g1, g2⟩ := h hm
      refine ⟨g1, fun x hx hxt => ?_⟩
      rcases List.mem_append.1 hx with hx | hx
      · exact g2 x hx hxt
      · simp only [List.mem_singleton] at hx
        subst hx
        exact absurd hxt.symm hu
  · obtain ⟨g1, g2⟩ := h hm
    refine ⟨g1, fun x hx hxt => ?_⟩
    rcases List.mem_append.1 hx with hx | hx
    · exact g2 x hx hxt
    · simp only [List.mem_singleton] at hx
      subst hx
      exact fun _ h => (nomatch h)
  · by_cases hu : t = u
    · subst hu
      simp only [messagesOf, put_self, List.flatMap_append, List.flatMap_singleton, List.append_eq_nil_iff] at hm ⊢
      obtain ⟨g1, g2⟩ := h hm.1
      have hb : ¬ SetsLog b ∧ ∀ i ∈ names b, owner i = t := by
        obtain ⟨done, w', φ, e1, -⟩ := hi.alone t
        have : b ∈ progs t := by rw [e1, h2]; simp
        exact ⟨hq b this, ho t b this⟩
      refine ⟨by rw [(begin_ops h3).1 hb.1, hm.2]; rfl, fun x hx hxt => ?_⟩
      rcases List.mem_append.1 hx with hx | hx
      · exact g2 x hx hxt
      · simp only [List.mem_singleton] at hx
        subst hx
        exact (begin_framed hi.homes hb.2 h3).only
    · simp only [messagesOf, put_ne hu] at hm ⊢
      obtain ⟨g1, g2⟩ := h hm
      refine ⟨g1, fun x hx hxt => ?_⟩
      rcases List.mem_append.1 hx with hx | hx
      · exact g2 x hx hxt
      · simp only [List.mem_singleton] at hx
        subst hx
        exact absurd hxt.symm hu

/-- the operations on the logger, in the order of the schedule, are those of the messages of the threads -/
theorem log_ops {w : LogWorld k} {progs : Nat → List (LAct k)} (hq : ∀ t, ∀ a ∈ progs t, ¬ SetsLog a) {sched : List Nat} {r}
    (hr : (fork w progs).run sp sched = .ok r) : ∃ ys : List (Nat × Logger.Op), w.log.exec (ys.map Prod.snd) = .ok r.1.log ∧
      ∀ t, (ys.filter fun y => y.1 = t).map Prod.snd ++ (r.1.threads t).pending = (messagesOf r.1 t).flatMap Msg.ops := by
  refine (run_induct (sp := sp) (P := fun s _ => (∀ t, ∀ a ∈ (s.threads t).todo, a ∈ progs t) ∧
    ∃ ys : List (Nat × Logger.Op), w.log.exec (ys.map Prod.snd) = .ok s.log ∧
      ∀ t, (ys.filter fun y => y.1 = t).map Prod.snd ++ (s.threads t).pending = (messagesOf s t).flatMap Msg.ops) ?_ (pre := [])
      ⟨fun t a h => h, [], rfl, fun t => rfl⟩ hr).2
  rintro s pre u q ⟨ht, ys, h1, h2⟩ hs
  rcases step_cases hs with ⟨op, ops, l, g1, g2, rfl⟩ | ⟨g1, g2, rfl⟩ | ⟨b, as, z, g1, g2, g3, rfl⟩
  · refine ⟨fun t a ha => ?_, ys ++ [(u, op)], ?_, fun t => ?_⟩
    · by_cases hu : t = u
      · subst hu; simp only [put_self] at ha; exact ht t a ha
      · simp only [put_ne hu] at ha; exact ht t a ha
    · rw [List.map_append, exec_append, h1]
      simp only [ok_bind, List.map_cons, List.map_nil, Logger.exec, g2]
    · have := h2 t
      by_cases hu : t = u
      · subst hu
        rw [g1] at this
        simp only [messagesOf, put_self, List.filter_append, List.map_append]
        simpa [messagesOf] using this
      · simp only [messagesOf, put_ne hu, List.filter_append, List.map_append]
        have e : ([(u, op)].filter fun y => y.1 = t) = [] := by simp; exact fun h => hu h.symm
        rw [e, List.map_nil, List.append_nil]
        exact this
  · exact ⟨ht, ys, h1, h2⟩
  · refine ⟨fun t a ha => ?_, ys, h1, fun t => ?_⟩
    · by_cases hu : t = u
      · subst hu; simp only [put_self] at ha; exact ht t a (by rw [g2]; exact List.mem_cons_of_mem _ ha)
      · simp only [put_ne hu] at ha; exact ht t a ha
    · have := h2 t
      by_cases hu : t = u
      · subst hu
        rw [g1, List.append_nil] at this
        simp only [messagesOf, put_self, List.flatMap_append, List.flatMap_singleton]
        rw [(begin_ops g3).1 (hq t b (ht t b (by rw [g2]; exact List.mem_cons_self))), this]
        rfl
      · simp only [messagesOf, put_ne hu]
        exact this

end Threads
end Mpc
