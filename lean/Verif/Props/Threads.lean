import Verif.Proofs.ThreadRuns
import Verif.Props.Reports

/-
C100, C101, C102: controllers used from several threads.
-/
namespace Mpc.Props
open Mpc.Spec Exec World Threads
set_option linter.unusedSectionVars false

variable {k : Kind} {sp : Speaker k} {owner : Nat → Nat} {progs : Nat → List (LAct k)} {l : Logger} {sched : List Nat}
  {s : Threads k} {trace : List (Nat × List Access)}

/-! ### C100 -/

/-- C100 as stated: a program in which every controller is used by one thread only has no data race, whatever the schedule. -/
def C100Claim (sp : Speaker k) : Prop :=
  ∀ (owner : Nat → Nat) (progs : Nat → List (LAct k)) (l : Logger) (sched : List Nat) s trace, Owned owner progs →
    (start l progs).run sp sched = .ok (s, trace) → ¬ Race trace

/-- C100, partial: when every controller is used by one thread only, copies included, the accesses of a race are accesses to the
logger or to its stream: two threads never touch the same controller or the same optimizer. -/
theorem c100_only_logger_partial (ho : Owned owner progs) (hr : (start l progs).run sp sched = .ok (s, trace)) {x y}
    (hx : x ∈ trace) (hy : y ∈ trace) (hn : x.1 ≠ y.1) {a b : Access} (ha : a ∈ x.2) (hb : b ∈ y.2) (hc : Conflict a b) :
    OfLogger a.loc := by
  obtain ⟨home, -, -, -, h⟩ := run_inv ho (home := fun _ => 0) inv_start hr
  obtain ⟨x1, x2⟩ := h x hx
  obtain ⟨y1, y2⟩ := h y hy
  obtain ⟨la, wa⟩ := a
  obtain ⟨lb, wb⟩ := b
  obtain ⟨h1, -, -⟩ := hc
  have h1 : la = lb := h1
  subst h1
  cases la with
  | obj i => exact absurd ((x1 i _ ha).symm.trans (y1 i _ hb)) hn
  | opt p => exact absurd ((x2 p _ ha).1.symm.trans (y2 p _ hb).1) hn
  | _ => trivial

/-- C100, partial: when at most one thread writes messages or sets the logger, there is no race. -/
theorem c100_quiet_partial (ho : Owned owner progs) (hr : (start l progs).run sp sched = .ok (s, trace)) (t0 : Nat)
    (hq : ∀ t, t ≠ t0 → messagesOf s t = [] ∧ ∀ a ∈ progs t, ¬ SetsLog a) : ¬ Race trace := by
  rintro ⟨x, hx, y, hy, hn, a, ha, b, hb, hc⟩
  have hl := c100_only_logger_partial ho hr hx hy hn ha hb hc
  by_cases h : x.1 = t0
  · have hy' : y.1 ≠ t0 := fun e => hn (h.trans e.symm)
    have hl' : OfLogger b.loc := by rw [← hc.1]; exact hl
    exact stays_away ho (home := fun _ => 0) inv_start hr y.1 (hq _ hy').2 (hq _ hy').1 y hy rfl b hb hl'
  · exact stays_away ho (home := fun _ => 0) inv_start hr x.1 (hq _ h).2 (hq _ h).1 x hx rfl a ha hl

/-- C100: two threads which have both finished and have both written a message, of whatever type and whatever the level, have
a data race, in every schedule. -/
theorem c100_messages_race (hr : (start l progs).run sp sched = .ok (s, trace)) {t u : Nat} (htu : t ≠ u) (ht : Finished s t)
    (hu : Finished s u) (hmt : messagesOf s t ≠ []) (hmu : messagesOf s u ≠ []) : Race trace := by
  rcases has_written hr t hmt with ⟨x, hx, hxt, hxa⟩ | ⟨τ, hτ⟩
  · rcases has_written hr u hmu with ⟨y, hy, hyu, hya⟩ | ⟨τ, hτ⟩
    · exact ⟨x, hx, y, hy, by rw [hxt, hyu]; exact htu, _, hxa, _, hya, rfl, .inl rfl, by simp⟩
    · rw [hu.2] at hτ; exact (nomatch hτ)
  · rw [ht.2] at hτ; exact (nomatch hτ)

/-- the messages of an action which writes one whenever it succeeds -/
theorem mute_speaks {a : LAct k} (ha : ∀ w q, begin sp w a = .ok q → q.2.2.1.2 ≠ []) : ∀ {acts : List (LAct k)} {w : World k} {q},
    a ∈ acts → mute sp w acts = .ok q → q.2.flatMap Prod.snd ≠ []
  | [], _, _, h, _ => (nomatch h)
  | b :: bs, w, q, h, hq => by
    simp only [mute, bind_eq_ok] at hq
    obtain ⟨r, hr, z, hz, hq⟩ := hq
    cases hq
    simp only [List.flatMap_cons]
    rcases List.mem_cons.1 h with rfl | h
    · exact fun e => ha _ _ hr (List.append_eq_nil_iff.1 e).1
    · exact fun e => mute_speaks ha h hz (List.append_eq_nil_iff.1 e).2

/-- two threads which both do an action which always writes a message race -/
theorem always_speaks (ho : Owned owner progs) (hr : (start l progs).run sp sched = .ok (s, trace)) {t : Nat}
    (ht : Finished s t) {a : LAct k} (ha : ∀ w q, begin sp w a = .ok q → q.2.2.1.2 ≠ []) (hm : a ∈ progs t) :
    messagesOf s t ≠ [] := by
  obtain ⟨home, hi, -⟩ := run_inv ho (home := fun _ => 0) inv_start hr
  obtain ⟨done, w', φ, h1, h2, -⟩ := hi.alone t
  have h1 : progs t = done ++ (s.threads t).todo := h1
  rw [ht.1, List.append_nil] at h1
  rw [h1] at hm
  exact mute_speaks ha hm h2

theorem weave_ne {det : Nat → List String} {ms : List Msg} (h : ms ≠ []) : weave det ms ≠ [] := by
  cases ms with
  | nil => exact absurd rfl h
  | cons m ms => simp [weave]

section
variable {K : Type} [Field K] [DecidableEq K] [LinearOrder K] [IsStrictOrderedRing K]

theorem linear_optimize_speaks {num : Ext K → String} {i : Nat} {x0 u0 : Vec K} {oc : OsqpOutcome K} {e : Said}
    (w : World (linearKind K)) (q) (h : begin (linearSpeaker K num) w (.act (.call i (.optimize x0 u0 oc)) e) = .ok q) :
    q.2.2.1.2 ≠ [] := by
  obtain ⟨l', h1, -⟩ := (logWorld_step (l := Logger.new) (by intro h; cases h) (by intro h; cases h)).2 q h
  obtain ⟨r, call, -, hm⟩ := linear_reports h1
  rw [hm]
  exact weave_ne (by simp)

/-- C100 for the linear controller: two threads which both call `optimize`, each on a controller of its own, have a data race
in every schedule which lets them finish. -/
theorem c100_linear {num : Ext K → String} {progs : Nat → List (LAct (linearKind K))} {s : Threads (linearKind K)}
    (ho : Owned owner progs) (hr : (start l progs).run (linearSpeaker K num) sched = .ok (s, trace)) {t u : Nat} (htu : t ≠ u)
    (ht : Finished s t) (hu : Finished s u) {i j : Nat} {x0 u0 x0' u0' : Vec K} {oc oc' : OsqpOutcome K} {e e' : Said}
    (hi : .act (.call i (LOp.optimize x0 u0 oc)) e ∈ progs t) (hj : .act (.call j (LOp.optimize x0' u0' oc')) e' ∈ progs u) :
    Race trace :=
  c100_messages_race hr htu ht hu (always_speaks ho hr ht linear_optimize_speaks hi)
    (always_speaks ho hr hu linear_optimize_speaks hj)

end

section
variable {d : Dims} {K : Type} [Field K] [LinearOrder K] [IsStrictOrderedRing K]

/-- C100 for the nonlinear controller: two threads which both construct a controller have a data race in every schedule which
lets them finish. -/
theorem c100_nonlinear {num : Ext K → String} {progs : Nat → List (LAct (nonlinearKind d K))} {s : Threads (nonlinearKind d K)}
    (ho : Owned owner progs) (hr : (start l progs).run (nonlinearSpeaker d K num) sched = .ok (s, trace)) {t u : Nat} (htu : t ≠ u)
    (ht : Finished s t) (hu : Finished s u) {i j : Nat} {a a' : (nonlinearKind d K).Args} {e e' : Said}
    (hi : .act (.create i a) e ∈ progs t) (hj : .act (.create j a') e' ∈ progs u) : Race trace := by
  have hs : ∀ {i a e} (w : World (nonlinearKind d K)) q, begin (nonlinearSpeaker d K num) w (.act (.create i a) e) = .ok q →
      q.2.2.1.2 ≠ [] := by
    intro i a e w q h
    simp only [begin, bind_eq_ok] at h
    obtain ⟨r, -, h⟩ := h
    cases h
    exact weave_ne (by simp [nonlinearSpeaker])
  exact c100_messages_race hr htu ht hu (always_speaks ho hr ht hs hi) (always_speaks ho hr hu hs hj)

end

/-! ### C101 -/

/-- C101: whatever the schedule, the actions a thread has begun have returned, and have written as messages, exactly what they
do in a program which consists of this thread alone, and the controllers of the thread are in the same state; copies
included. -/
theorem c101_as_alone (ho : Owned owner progs) (hk : KeepsStream progs) (hr : (start l progs).run sp sched = .ok (s, trace))
    (t : Nat) : ∃ done w', progs t = done ++ (s.threads t).todo ∧
      (LogWorld.empty k).run sp done = .ok (w', (s.threads t).outs) ∧ ∀ i, owner i = t → s.world.view i = w'.world.view i := by
  obtain ⟨home, hi, -⟩ := run_inv ho (home := fun _ => 0) inv_start hr
  obtain ⟨done, w', φ, h1, h2, h3, -⟩ := hi.alone t
  have h1 : progs t = done ++ (s.threads t).todo := h1
  obtain ⟨l', h4, -⟩ := (logWorld_run (sp := sp) (acts := done) (w := World.empty k) (l := Logger.new) (by intro h; cases h)
    (fun h => hk t (by rw [h1]; exact List.mem_append_left _ h))).2 _ h2
  exact ⟨done, _, h1, h4, fun i hi => h3.view hi⟩

/-- C101: if every thread's program runs without fault alone, every schedule of all of them does, and can be continued until
all have finished. -/
theorem c101_runs (ho : Owned owner progs) (hk : KeepsStream progs) (hl : l.os ≠ none)
    (ha : ∀ t, ∃ q, (LogWorld.empty k).run sp (progs t) = .ok q) {n : Nat} (hn : ∀ t, n ≤ t → progs t = []) (sched : List Nat) :
    ∃ r, (start l progs).run sp sched = .ok r ∧
      ∃ more r', (start l progs).run sp (sched ++ more) = .ok r' ∧ ∀ t, Finished r'.1 t := by
  have ha' : ∀ t, ∃ q, mute sp (World.empty k) (progs t) = .ok q := fun t => by
    cases hq : mute sp (World.empty k) (progs t) with
    | ok q => exact ⟨q, rfl⟩
    | error e =>
      obtain ⟨q, h⟩ := ha t
      have := (logWorld_run (sp := sp) (l := Logger.new) (by intro h; cases h) (hk t)).1 e hq
      rw [show LogWorld.run sp ⟨World.empty k, Logger.new⟩ (progs t) = _ from h] at this
      cases this
  obtain ⟨r, h1, h2⟩ := run_total ho hk ha' (sched := sched) (good_start hl)
  obtain ⟨more, r', g1, g2, g3, g4⟩ := finish_all ho hk ha' n h2
  refine ⟨r, h1, more, (r'.1, r.2 ++ r'.2), by rw [run_append, h1]; simp only [ok_bind, g1], fun t => ?_⟩
  by_cases ht : t < n
  · exact g3 t ht
  · obtain ⟨⟨home, hi⟩, -⟩ := g2
    -- a thread without a program has nothing to do
    have hd : Finished r.1 t := by
      have := run_induct (sp := sp) (P := fun s _ => (s.threads t).todo = [] ∧ (s.threads t).pending = []) ?_ (pre := [])
        ⟨hn t (by omega), rfl⟩ h1
      · exact this
      intro s pre u q h hs
      rcases step_cases hs with ⟨op, ops, l, e1, e2, rfl⟩ | ⟨-, -, rfl⟩ | ⟨b, as, z, e1, e2, -, rfl⟩
      · by_cases hu : t = u
        · subst hu; rw [h.2] at e1; cases e1
        · simp only [put_ne hu]; exact h
      · exact h
      · by_cases hu : t = u
        · subst hu; rw [h.1] at e2; cases e2
        · simp only [put_ne hu]; exact h
    unfold Finished at hd ⊢
    rw [show (r'.1, r.2 ++ r'.2).1 = r'.1 from rfl, g4 t (by omega)]
    exact hd

/-! ### C102 -/

/-- C102 as stated: when no thread changes the settings of the logger, the stream receives, once all threads have finished, the
messages of all threads which are at or above the level, each with its tag and in full, in some order which keeps that of
every thread. -/
def C102Claim (sp : Speaker k) : Prop :=
  ∀ (owner : Nat → Nat) (progs : Nat → List (LAct k)) (l : Logger) (sched : List Nat) s trace, Owned owner progs →
    (∀ t, ∀ a ∈ progs t, ¬ SetsLog a) → (start l progs).run sp sched = .ok (s, trace) → (∀ t, Finished s t) →
    ∃ ms, Interleaving (messagesOf s) ms ∧
      ∀ st, s.log.text st = l.text st ++ (if l.os = some st then shown l.thresholdLevel l.pfx ms else "")

/-- what an operation of a message adds when it is visible -/
def added (p : String) : Logger.Op → String
  | .log _ => tag p
  | .stream x => x
  | _ => ""

/-- operations of messages which are all visible, or all not -/
theorem uniform_exec {b : Bool} : ∀ {ops : List Logger.Op} {l l' : Logger}, l.exec ops = .ok l' →
    (∀ op ∈ ops, (∃ τ, op = .log τ ∧ visible l.thresholdLevel τ = b) ∨ ∃ x, op = .stream x) →
    visible l.thresholdLevel l.currentType = b →
    ∀ st, l'.text st = l.text st ++ (if l.os = some st ∧ b = true then glued (ops.map (added l.pfx)) else "")
  | [], l, l', h, _, _, st => by
    cases h
    simp [glued]
  | op :: ops, l, l', h, ho, hv, st => by
    simp only [Logger.exec, bind_eq_ok] at h
    obtain ⟨l1, h1, h2⟩ := h
    rcases ho op List.mem_cons_self with ⟨τ, rfl, hτ⟩ | ⟨x, rfl⟩
    · have e := log_text h1
      subst e
      rw [uniform_exec h2 (fun op h => ho op (List.mem_cons_of_mem _ h)) hτ st]
      simp only [hτ]
      by_cases hc : l.os = some st ∧ b = true
      · rw [if_pos hc, if_pos hc, if_pos hc, String.append_assoc]; rfl
      · rw [if_neg hc, if_neg hc, if_neg hc]
    · have e := stream_text h1
      subst e
      rw [uniform_exec h2 (fun op h => ho op (List.mem_cons_of_mem _ h)) hv st]
      simp only [hv]
      by_cases hc : l.os = some st ∧ b = true
      · rw [if_pos hc, if_pos hc, if_pos hc, String.append_assoc]; rfl
      · rw [if_neg hc, if_neg hc, if_neg hc]

/-- C102, partial: when the messages of all threads are at or above the level, or all below it, nothing is lost and nothing
leaks: the stream receives the tags and the texts of all messages, each in one piece and in an order which keeps that of every
thread, or nothing. (Missing: tags and texts of different threads may alternate; messages of both sorts.) -/
theorem c102_uniform_partial (hq : ∀ t, ∀ a ∈ progs t, ¬ SetsLog a) (hr : (start l progs).run sp sched = .ok (s, trace))
    (hf : ∀ t, Finished s t) {b : Bool} (hb : ∀ t, ∀ m ∈ messagesOf s t, visible l.thresholdLevel m.type = b) :
    ∃ xs, Interleaving (fun t => pieces l.pfx (messagesOf s t)) xs ∧
      ∀ st, s.log.text st = l.text st ++ (if l.os = some st ∧ b = true then glued xs else "") := by
  obtain ⟨ys, h1, h2⟩ := log_ops hq hr
  have h2 : ∀ t, (ys.filter fun y => y.1 = t).map Prod.snd = (messagesOf s t).flatMap Msg.ops := fun t => by
    have := h2 t
    have hp : ((s, trace).1.threads t).pending = [] := (hf t).2
    rw [hp, List.append_nil] at this
    exact this
  refine ⟨(ys.map Prod.snd).map (added l.pfx), ⟨ys.map fun y => (y.1, added l.pfx y.2), ?_, fun t => ?_⟩, fun st => ?_⟩
  · rw [List.map_map, List.map_map]; rfl
  · have e : ((ys.map fun y => (y.1, added l.pfx y.2)).filter fun y => y.1 = t).map Prod.snd =
        ((ys.filter fun y => y.1 = t).map Prod.snd).map (added l.pfx) := by
      rw [List.filter_map, List.map_map, List.map_map]; rfl
    rw [e, h2 t]
    simp only [pieces, List.map_flatMap, Msg.ops, List.map_cons, List.map_nil, added]
  · have hops : ∀ op ∈ ys.map Prod.snd, (∃ τ, op = .log τ ∧ visible l.thresholdLevel τ = b) ∨ ∃ x, op = .stream x := by
      intro op ho
      obtain ⟨y, hy, rfl⟩ := List.mem_map.1 ho
      have : y.2 ∈ (messagesOf s y.1).flatMap Msg.ops := by
        rw [← h2]
        exact List.mem_map.2 ⟨y, List.mem_filter.2 ⟨hy, by simp⟩, rfl⟩
      obtain ⟨m, hm, hm'⟩ := List.mem_flatMap.1 this
      simp only [Msg.ops, List.mem_cons, List.not_mem_nil, or_false] at hm'
      rcases hm' with h | h
      · exact .inl ⟨_, h, hb _ m hm⟩
      · exact .inr ⟨_, h⟩
    -- the first operation is the beginning of a message
    cases hys : ys with
    | nil =>
      rw [hys] at h1
      cases h1
      simp [glued]
    | cons y zs =>
      have hy := h2 y.1
      rw [hys] at hy h1 hops
      simp only [List.filter_cons, decide_true, if_true, List.map_cons] at hy
      cases hm : messagesOf s y.1 with
      | nil => rw [hm] at hy; cases hy
      | cons m ms =>
        rw [hm] at hy
        have hy1 : y.2 = .log m.type := by
          simp only [List.flatMap_cons, Msg.ops, List.cons_append, List.cons.injEq] at hy
          exact hy.1
        simp only [List.map_cons, Logger.exec, bind_eq_ok] at h1
        obtain ⟨l1, g1, g2⟩ := h1
        rw [hy1] at g1
        have e := log_text g1
        subst e
        have hv : visible l.thresholdLevel m.type = b := hb y.1 m (by rw [hm]; exact List.mem_cons_self)
        have := uniform_exec (b := b) g2 (fun op h => hops op (List.mem_cons_of_mem _ h)) hv st
        rw [this]
        simp only [hv, List.map_cons, hy1]
        by_cases hc : l.os = some st ∧ b = true
        · rw [if_pos hc, if_pos hc, if_pos hc, String.append_assoc]; rfl
        · rw [if_neg hc, if_neg hc, if_neg hc]

end Mpc.Props

/-! ### programs to instantiate the theorems with -/

namespace Mpc.Props
open Mpc.Spec Exec World Threads

theorem exec_last {m : LMpc ℚ} {op : LOp ℚ} {p} (h : m.step op = .ok p) : ∀ {xs : List (LOp ℚ)} {m0 : LMpc ℚ} {outs : List (LOut ℚ)},
    m0.exec xs = .ok (m, outs) → ∃ o, m0.exec (xs ++ [op]) = .ok (p.1, o)
  | [], m0, outs, h0 => by
    cases h0
    refine ⟨[p.2], ?_⟩
    simp only [List.nil_append, LMpc.exec, h, ok_bind]
    rfl
  | x :: xs, m0, outs, h0 => by
    simp only [LMpc.exec, bind_eq_ok] at h0
    obtain ⟨q, hq, z, hz, h0⟩ := h0
    cases h0
    obtain ⟨o, ho⟩ := exec_last h hz
    refine ⟨q.2 :: o, ?_⟩
    simp only [List.cons_append, LMpc.exec, hq, ok_bind, ho]
    rfl

/-- a program of one controller -/
theorem linear_single {a : (linearKind ℚ).Args} {m0 m' : LMpc ℚ} {calls : List (LOp ℚ)} {outs}
    (hb : (linearKind ℚ).build a = .ok ((m0.d, m0.b), m0.o)) (hex : m0.exec calls = .ok (m', outs)) (i : Nat) :
    ∃ z, (World.empty (linearKind ℚ)).run (.create i a :: calls.map (fun op => .call i op)) = .ok z := by
  obtain ⟨q, hq⟩ := alone_linear_runs (i := i) hex
  have hm : ∀ op ∈ (WOp.create i a :: calls.map (fun op => (.call i op : WOp (linearKind ℚ)))), plain op ∧ subject op = i := by
    intro op ho
    rcases List.mem_cons.1 ho with rfl | ho
    · exact ⟨trivial, rfl⟩
    · obtain ⟨y, -, rfl⟩ := List.mem_map.1 ho
      exact ⟨trivial, rfl⟩
  refine c74_runs_partial (fun op ho => (hm op ho).1) fun j => ?_
  by_cases hj : j = i
  · subst hj
    rw [show about j _ = _ from List.filter_eq_self.2 fun x hx => by simpa using (hm x hx).2]
    exact ⟨_, aloneRun_create.2 ⟨_, hb, q, hq, rfl⟩⟩
  · rw [show about j _ = _ from List.filter_eq_nil_iff.2 fun x hx => by
      rw [(hm x hx).2]; simpa using Ne.symm hj]
    exact ⟨_, rfl⟩

/-- a controller alone: construction, configuration, one `optimize` -/
theorem linear_thread (num : Ext ℚ → String) : ∃ (a : (linearKind ℚ).Args) (m0 : LMpc ℚ) (calls : List (LOp ℚ)),
    LMpc.new a.1 a.2.1 a.2.2 = .ok m0 ∧ m0.d = sampleDims ∧ (∃ x0 u0 oc, LOp.optimize x0 u0 oc ∈ calls) ∧
    ∀ i, ∃ q, (LogWorld.empty (linearKind ℚ)).run (linearSpeaker ℚ num)
      ((WOp.create i a :: calls.map (fun op => .call i op)).map fun op => .act op {}) = .ok q := by
  obtain ⟨m, m', r, call, ha⟩ := sample_asked 1 0 none
  obtain ⟨uninit, junk, m0, h0, e0⟩ := ha.built
  have hd : m0.d = sampleDims := by
    unfold LMpc.new at h0
    simp only [bind_eq_ok] at h0
    obtain ⟨b, -, h0⟩ := h0
    cases h0
    rfl
  have hb := linearKind_build (a := (sampleDims, uninit, junk)).2 ⟨m0, h0, rfl⟩
  obtain ⟨outs, hex⟩ := exec_last ha.optimized e0
  have hopt : LOp.optimize (cvec 2 1) (cvec 1 0) (.answered 1 0 none) ∈
    sampleOps ++ [LOp.optimize (cvec 2 1) (cvec 1 0) (.answered 1 0 none)] := List.mem_append_right _ List.mem_cons_self
  generalize (sampleOps ++ [LOp.optimize (cvec 2 1) (cvec 1 0) (.answered 1 0 none)]) = calls at hex hopt
  refine ⟨(sampleDims, uninit, junk), m0, calls, h0, hd, ⟨_, _, _, hopt⟩, fun i => ?_⟩
  obtain ⟨z, hz⟩ := linear_single hb hex i
  obtain ⟨l', o', h, -⟩ := LogWorld.run_total (sp := linearSpeaker ℚ num) (w := LogWorld.empty (linearKind ℚ)) {} hz
    (by intro h; cases h)
  exact ⟨_, h⟩

/-- two threads, each with a controller which it constructs, configures and lets optimize; a schedule which begins with any
`sched` and lets both finish -/
theorem two_threads (num : Ext ℚ → String) {l : Logger} (hl : l.os ≠ none) (sched : List Nat) : ∃ (progs : Nat → List (LAct (linearKind ℚ))) (more : List Nat)
    (s : Threads (linearKind ℚ)) (trace : _),
    Owned id progs ∧ KeepsStream progs ∧ (∀ t, ∀ a ∈ progs t, ¬ SetsLog a) ∧
    (start l progs).run (linearSpeaker ℚ num) (sched ++ more) = .ok (s, trace) ∧ (∀ t, Finished s t) ∧
    (∀ t < 2, ∃ i x0 u0 oc e, .act (.call i (LOp.optimize x0 u0 oc)) e ∈ progs t) ∧ ∀ t, 2 ≤ t → progs t = [] := by
  obtain ⟨a, m0, calls, -, -, ⟨x0, u0, oc, hopt⟩, hall⟩ := linear_thread num
  let progs : Nat → List (LAct (linearKind ℚ)) := fun t => if t < 2 then
    (WOp.create t a :: calls.map (fun op => .call t op)).map fun op => .act op {} else []
  have hmem : ∀ t, ∀ b ∈ progs t, ∃ op, b = .act op {} ∧ ∀ i ∈ involved op, i = t := by
    intro t b hb
    by_cases ht : t < 2
    · simp only [progs, if_pos ht] at hb
      obtain ⟨op, ho, rfl⟩ := List.mem_map.1 hb
      refine ⟨op, rfl, fun i hi => ?_⟩
      rcases List.mem_cons.1 ho with rfl | ho
      · simpa [involved] using hi
      · obtain ⟨y, -, rfl⟩ := List.mem_map.1 ho
        simpa [involved] using hi
    · simp only [progs, if_neg ht] at hb
      exact (nomatch hb)
  have ho : Owned id progs := fun t b hb i hi => by
    obtain ⟨op, rfl, h⟩ := hmem t b hb
    exact h i hi
  have hk : KeepsStream progs := fun t h => by
    obtain ⟨op, e, -⟩ := hmem t _ h
    cases e
  obtain ⟨r, -, more, ⟨s, trace⟩, h1, h2⟩ := c101_runs (sp := linearSpeaker ℚ num) ho hk hl (by
    intro t
    by_cases ht : t < 2
    · simp only [progs, if_pos ht]
      exact hall t
    · simp only [progs, if_neg ht]
      exact ⟨_, rfl⟩) (n := 2) (fun t ht => if_neg (by omega)) sched
  refine ⟨progs, more, s, trace, ho, hk, fun t b hb => ?_, h1, h2, fun t ht => ?_, fun t ht => if_neg (by omega)⟩
  · obtain ⟨op, rfl, -⟩ := hmem t b hb
    exact id
  · refine ⟨t, x0, u0, oc, {}, ?_⟩
    simp only [progs, if_pos ht]
    exact List.mem_map.2 ⟨_, List.mem_cons_of_mem _ (List.mem_map.2 ⟨_, hopt, rfl⟩), rfl⟩

/-- C100 is violated: two threads which use a linear controller each, no controller in common, have a data race. -/
theorem c100_violated : ∃ num, ¬ C100Claim (linearSpeaker ℚ num) := by
  refine ⟨fun _ => "", fun hc => ?_⟩
  obtain ⟨progs, more, s, trace, ho, -, -, hr, hf, hopt, -⟩ := two_threads (fun _ => "") (l := Logger.new) (by intro h; cases h) []
  obtain ⟨i, x0, u0, oc, e, hi⟩ := hopt 0 (by decide)
  obtain ⟨j, x0', u0', oc', e', hj⟩ := hopt 1 (by decide)
  exact hc id progs Logger.new _ s trace ho hr (c100_linear ho hr (by decide) (hf 0) (hf 1) hi hj)

/-- Non-vacuity of `c100_only_logger_partial`, `c100_messages_race`, `c100_linear`, `c101_as_alone`, `c101_runs`: the threads of
`two_threads` begin in turns. -/
example : ∃ (progs : Nat → List (LAct (linearKind ℚ))) (more : List Nat) (s : Threads (linearKind ℚ)) (trace : _),
    Owned id progs ∧ KeepsStream progs ∧
    (start Logger.new progs).run (linearSpeaker ℚ fun _ => "") ([0, 1, 0, 1] ++ more) = .ok (s, trace) ∧
    (∀ t, Finished s t) ∧ (∀ t < 2, ∃ i x0 u0 oc e, .act (.call i (LOp.optimize x0 u0 oc)) e ∈ progs t) := by
  obtain ⟨progs, more, s, trace, ho, hk, -, hr, hf, hopt, -⟩ := two_threads (fun _ => "") (l := Logger.new) (by intro h; cases h) [0, 1, 0, 1]
  exact ⟨progs, more, s, trace, ho, hk, hr, hf, hopt⟩

theorem step_begin {k : Kind} {sp : Speaker k} {s : Threads k} {t : Nat} {a : LAct k} {as : List (LAct k)} {q}
    (hp : (s.threads t).pending = []) (ht : (s.threads t).todo = a :: as) (hq : begin sp s.world a = .ok q) :
    s.step sp t = .ok (⟨q.1, s.log, s.put t ⟨as, q.2.1, (s.threads t).outs ++ [q.2.2.1]⟩⟩, q.2.2.2) := by
  unfold Threads.step
  rw [hp, ht]
  simp only [hq, ok_bind]
  rfl

theorem begin_act {k : Kind} {sp : Speaker k} {w : World k} {op : WOp k} {e : Said} {r ms} (h : w.step op = .ok r)
    (hm : LogWorld.messages sp w op r.2 e = ms) :
    begin sp w (.act op e) = .ok (r.1, ms.flatMap Msg.ops, (r.2, ms), w.touches op) := by
  subst hm
  simp only [begin, h, ok_bind]
  rfl

theorem step_log {k : Kind} {sp : Speaker k} {s : Threads k} {t : Nat} {op : Logger.Op} {ops : List Logger.Op} {l}
    (hp : (s.threads t).pending = op :: ops) (hl : s.log.step op = .ok l) :
    s.step sp t = .ok (⟨s.world, l, s.put t { s.threads t with pending := ops }⟩, s.log.touches op) := by
  unfold Threads.step
  rw [hp]
  simp only [hl, ok_bind]
  rfl

/-- the program of the counterexamples: thread 0 is refused an index, thread 1 writes a DETAIL message -/
def clash (a : (linearKind ℚ).Args) : Nat → List (LAct (linearKind ℚ))
  | 0 => [.act (.create 0 a) {}, .act (.call 0 (LOp.setScalarConstraintAt 7 (.fin 0) (.fin 0) (cvec 2 0) (cvec 1 0))) {}]
  | 1 => [.act (.create 1 a) { details := fun n => if n = 0 then ["detail\n"] else [] }]
  | _ => []

theorem clash_owned (a) : Owned id (clash a) := by
  intro t b hb i hi
  match t with
  | 0 =>
    simp only [clash, List.mem_cons, List.not_mem_nil, or_false] at hb
    rcases hb with rfl | rfl <;> simpa [names, involved] using hi
  | 1 =>
    simp only [clash, List.mem_cons, List.not_mem_nil, or_false] at hb
    subst hb
    simpa [names, involved] using hi
  | n + 2 => exact (nomatch hb)

theorem clash_sets (a) : ∀ t, ∀ b ∈ clash a t, ¬ SetsLog b := by
  intro t b hb
  match t with
  | 0 =>
    simp only [clash, List.mem_cons, List.not_mem_nil, or_false] at hb
    rcases hb with rfl | rfl <;> exact id
  | 1 =>
    simp only [clash, List.mem_cons, List.not_mem_nil, or_false] at hb
    subst hb; exact id
  | n + 2 => exact (nomatch hb)

/-- both threads have begun their last action -/
theorem clash_begins : ∃ (a : (linearKind ℚ).Args) (s : Threads (linearKind ℚ)) (trace : _),
    (start Logger.new (clash a)).run (linearSpeaker ℚ fun _ => "") [0, 0, 1] = .ok (s, trace) ∧ s.log = Logger.new ∧
    (∀ t, (s.threads t).todo = []) ∧ (s.threads 0).pending = [.log .ERROR, .stream indexText] ∧
    (s.threads 1).pending = [.log .DETAIL, .stream "detail\n"] ∧ (∀ t, (s.threads (t + 2)).pending = []) ∧
    messagesOf s 0 = [⟨.ERROR, indexText⟩] ∧ messagesOf s 1 = [⟨.DETAIL, "detail\n"⟩] ∧ ∀ t, messagesOf s (t + 2) = [] := by
  obtain ⟨a, m0, -, h0, hd, -⟩ := linear_thread fun _ => ""
  have hb := linearKind_build (a := a).2 ⟨m0, h0, rfl⟩
  have c0 := World.step_create (w := World.empty (linearKind ℚ)) (i := 0) rfl hb
  have hs : m0.step (.setScalarConstraintAt 7 (.fin 0) (.fin 0) (cvec 2 0) (cvec 1 0)) = .ok (m0, .bool false) := by
    show LMpc.setScalarConstraintAt _ _ _ _ _ _ = _
    unfold LMpc.setScalarConstraintAt
    rw [if_pos (by rw [hd]; decide)]
    rfl
  have c1 := World.step_call (k := linearKind ℚ) (op := LOp.setScalarConstraintAt 7 (.fin 0) (.fin 0) (cvec 2 0) (cvec 1 0))
    (w := ⟨World.set (World.empty (linearKind ℚ)).objs 0 (some ⟨(m0.d, m0.b), 0⟩),
      World.set (World.empty (linearKind ℚ)).heap 0 (some ⟨m0.o, 0⟩), 1⟩) (i := 0) rfl rfl rfl
    (linearKind_step (b := (m0.d, m0.b)) (o := m0.o).2 ⟨_, hs, rfl⟩)
  have c2 := fun (w : World (linearKind ℚ)) (hw : w.objs 1 = none) => World.step_create (w := w) (i := 1) hw hb
  have b0 := begin_act (sp := linearSpeaker ℚ fun _ => "") (e := {}) (ms := []) c0 rfl
  have b1 := begin_act (sp := linearSpeaker ℚ fun _ => "") (e := {}) (ms := [⟨.ERROR, indexText⟩]) c1 (by
    show weave _ (if 7 ≥ m0.d.ph then [⟨.ERROR, indexText⟩] else []) = _
    rw [if_pos (by rw [hd]; decide)]
    rfl)
  have b2 := fun (w : World (linearKind ℚ)) (hw : w.objs 1 = none) => begin_act (sp := linearSpeaker ℚ fun _ => "")
    (e := { details := fun n => if n = 0 then ["detail\n"] else [] }) (ms := [⟨.DETAIL, "detail\n"⟩]) (c2 w hw) rfl
  have s0 := step_begin (s := start Logger.new (clash a)) (t := 0) rfl rfl b0
  refine ⟨a, _, _, run_cons s0 (run_cons (step_begin (t := 0) rfl rfl b1) (run_cons (step_begin (t := 1) rfl rfl (b2 _ rfl)) rfl)), rfl, fun t => ?_, rfl, rfl,
    fun t => rfl, rfl, rfl, fun t => rfl⟩
  match t with
  | 0 => rfl
  | 1 => rfl
  | n + 2 => rfl

/-- the end of the program, when the threads write their messages in the order `[0, 1, 0, 1]` or `[1, 0, 1, 0]` -/
theorem clash_ends {x y : Nat} (hxy : (x = 0 ∧ y = 1) ∨ (x = 1 ∧ y = 0)) {s : Threads (linearKind ℚ)} {ox oy px py : Logger.Op} {l1 l2 l3 l4 : Logger}
    (htd : ∀ t, (s.threads t).todo = []) (hx : (s.threads x).pending = [ox, px]) (hy : (s.threads y).pending = [oy, py])
    (hz : ∀ t, (s.threads (t + 2)).pending = [])
    (h1 : s.log.step ox = .ok l1) (h2 : l1.step oy = .ok l2) (h3 : l2.step px = .ok l3) (h4 : l3.step py = .ok l4) :
    ∃ s' trace, s.run (linearSpeaker ℚ fun _ => "") [x, y, x, y] = .ok (s', trace) ∧ s'.log = l4 ∧ (∀ t, Finished s' t) ∧
      messagesOf s' = messagesOf s := by
  have hne : x ≠ y := by rcases hxy with ⟨rfl, rfl⟩ | ⟨rfl, rfl⟩ <;> decide
  refine ⟨_, _, run_cons (step_log hx h1) (run_cons (step_log (t := y) (op := oy) (ops := [py]) ?_ h2)
    (run_cons (step_log (t := x) (op := px) (ops := []) ?_ h3) (run_cons (step_log (t := y) (op := py) (ops := []) ?_ h4) rfl))),
    rfl, fun t => ?_, ?_⟩
  · simp only [put, if_neg hne.symm]; exact hy
  · simp only [put, if_neg hne, if_true]
  · simp only [put, if_neg hne.symm, if_true]
  · simp only [Finished, put]
    by_cases hty : t = y
    · subst hty
      simp [hne.symm, htd]
    · by_cases htx : t = x
      · subst htx
        simp [hne, htd]
      · simp only [hty, htx, if_false]
        refine ⟨htd t, ?_⟩
        match t with
        | 0 => rcases hxy with ⟨rfl, rfl⟩ | ⟨rfl, rfl⟩ <;> contradiction
        | 1 => rcases hxy with ⟨rfl, rfl⟩ | ⟨rfl, rfl⟩ <;> contradiction
        | n + 2 => exact hz n
  · funext t
    simp only [messagesOf, put]
    by_cases hty : t = y
    · subst hty
      simp [hne.symm]
    · by_cases htx : t = x
      · subst htx
        simp [hne]
      · simp [hty, htx]

theorem shown_length {v : LogLevel} {p : String} {m : Msg} (hv : visible v m.type = true) : ∀ {ms : List Msg}, m ∈ ms →
    (tag p).length + m.text.length ≤ (shown v p ms).length
  | [], h => (nomatch h)
  | x :: xs, h => by
    simp only [shown, String.length_append]
    rcases List.mem_cons.1 h with rfl | h
    · rw [if_pos hv, String.length_append]
      omega
    · have := shown_length hv (p := p) h
      omega

theorem interleaving_mem {α : Type} {parts : Nat → List α} {xs : List α} (h : Interleaving parts xs) {t : Nat} {x : α}
    (hx : x ∈ parts t) : x ∈ xs := by
  obtain ⟨ys, rfl, h⟩ := h
  rw [← h t] at hx
  obtain ⟨y, hy, rfl⟩ := List.mem_map.1 hx
  exact List.mem_map.2 ⟨y, (List.mem_filter.1 hy).1, rfl⟩

/-- the whole program of the counterexamples -/
theorem clash_runs {x y : Nat} (hxy : (x = 0 ∧ y = 1) ∨ (x = 1 ∧ y = 0)) : ∃ (a : (linearKind ℚ).Args)
    (s : Threads (linearKind ℚ)) (trace : _),
    (start Logger.new (clash a)).run (linearSpeaker ℚ fun _ => "") ([0, 0, 1] ++ [x, y, x, y]) = .ok (s, trace) ∧
    (∀ t, Finished s t) ∧ messagesOf s 0 = [⟨.ERROR, indexText⟩] ∧ messagesOf s 1 = [⟨.DETAIL, "detail\n"⟩] ∧
    (∀ t, messagesOf s (t + 2) = []) ∧ s.log.text 0 = if x = 0 then "[MPC++] " else "[MPC++] detail\n" ++ indexText := by
  obtain ⟨a, s, trace, h1, hl, h2, h3, h4, h5, h6, h7, h8⟩ := clash_begins
  rcases hxy with ⟨rfl, rfl⟩ | ⟨rfl, rfl⟩
  · obtain ⟨s', tr, g1, g2, g3, g4⟩ := clash_ends (.inl ⟨rfl, rfl⟩) h2 h3 h4 h5 (by rw [hl]; rfl) rfl rfl rfl
    refine ⟨a, s', trace ++ tr, by rw [run_append, h1]; simp only [ok_bind, g1], g3, by rw [g4]; exact h6, by rw [g4]; exact h7,
      fun t => by rw [g4]; exact h8 t, ?_⟩
    rw [g2]
    rfl
  · obtain ⟨s', tr, g1, g2, g3, g4⟩ := clash_ends (.inr ⟨rfl, rfl⟩) h2 h4 h3 h5 (by rw [hl]; rfl) rfl rfl rfl
    refine ⟨a, s', trace ++ tr, by rw [run_append, h1]; simp only [ok_bind, g1], g3, by rw [g4]; exact h6, by rw [g4]; exact h7,
      fun t => by rw [g4]; exact h8 t, ?_⟩
    rw [g2]
    rfl

/-- C102 is violated: an error message is lost, although errors are above the level: the tag is written, the explanation is
not, because a DETAIL message of another thread begins in between. -/
theorem c102_lost_violated : ∃ num, ¬ C102Claim (linearSpeaker ℚ num) := by
  refine ⟨fun _ => "", fun hc => ?_⟩
  obtain ⟨a, s, trace, h1, h2, h3, -, -, h4⟩ := clash_runs (.inl ⟨rfl, rfl⟩)
  obtain ⟨ms, g1, g2⟩ := hc id (clash a) Logger.new _ s trace (clash_owned a) (clash_sets a) h1 h2
  have hm : (⟨.ERROR, indexText⟩ : Msg) ∈ ms := interleaving_mem g1 (t := 0) (by rw [h3]; exact List.mem_cons_self)
  have hlen := shown_length (v := .NORMAL) (p := "") (m := ⟨.ERROR, indexText⟩) rfl hm
  have ht := g2 0
  rw [h4, if_pos rfl] at ht
  have e : ("[MPC++] " : String) = shown .NORMAL "" ms := by
    rw [ht]
    rw [if_pos (by rfl)]
    exact String.empty_append
  rw [← e] at hlen
  exact absurd hlen (by decide)

/-- C102 is violated the other way too: the text of a DETAIL message is written although it is below the level, because an
error message of another thread begins in between. -/
theorem c102_leak_violated : ∃ (progs : Nat → List (LAct (linearKind ℚ))) (sched : List Nat) (s : Threads (linearKind ℚ)) (trace : _),
    Owned id progs ∧ (∀ t, ∀ a ∈ progs t, ¬ SetsLog a) ∧
    (start Logger.new progs).run (linearSpeaker ℚ fun _ => "") sched = .ok (s, trace) ∧ (∀ t, Finished s t) ∧
    messagesOf s 1 = [⟨.DETAIL, "detail\n"⟩] ∧ visible Logger.new.thresholdLevel .DETAIL = false ∧
    s.log.text 0 = "[MPC++] detail\nHorizon index out of bounds\n" := by
  obtain ⟨a, s, trace, h1, h2, h3, h4, -, h5⟩ := clash_runs (.inr ⟨rfl, rfl⟩)
  exact ⟨clash a, _, s, trace, clash_owned a, clash_sets a, h1, h2, h4, rfl, h5⟩

/-- Non-vacuity of `c102_uniform_partial`: two threads which let their controllers optimize, at level DEEP. -/
example : ∃ (l : Logger) (progs : Nat → List (LAct (linearKind ℚ))) (sched : List Nat) (s : Threads (linearKind ℚ)) (trace : _),
    (∀ t, ∀ a ∈ progs t, ¬ SetsLog a) ∧ (start l progs).run (linearSpeaker ℚ fun _ => "") sched = .ok (s, trace) ∧
    (∀ t, Finished s t) ∧ (∀ t, ∀ m ∈ messagesOf s t, visible l.thresholdLevel m.type = true) ∧ messagesOf s 0 ≠ [] ∧
    messagesOf s 1 ≠ [] := by
  obtain ⟨progs, more, s, trace, ho, -, hq, hr, hf, hopt, -⟩ := two_threads (fun _ => "")
    (l := { Logger.new with thresholdLevel := .DEEP }) (by intro h; cases h) [0, 1, 0, 1]
  obtain ⟨i, x0, u0, oc, e, hi⟩ := hopt 0 (by decide)
  obtain ⟨j, x0', u0', oc', e', hj⟩ := hopt 1 (by decide)
  exact ⟨_, progs, _, s, trace, hq, hr, hf, fun _ _ _ => rfl, always_speaks ho hr (hf 0) linear_optimize_speaks hi,
    always_speaks ho hr (hf 1) linear_optimize_speaks hj⟩

/-- Non-vacuity of `c100_quiet_partial`: one thread lets its controller optimize while another constructs one. -/
example : ∃ (progs : Nat → List (LAct (linearKind ℚ))) (more : List Nat) (s : Threads (linearKind ℚ)) (trace : _),
    Owned id progs ∧ (start Logger.new progs).run (linearSpeaker ℚ fun _ => "") ([0, 1, 0] ++ more) = .ok (s, trace) ∧
    (∀ t, t ≠ 0 → messagesOf s t = [] ∧ ∀ a ∈ progs t, ¬ SetsLog a) ∧ messagesOf s 0 ≠ [] ∧ progs 1 ≠ [] ∧ ∀ t, Finished s t := by
  obtain ⟨a, m0, calls, h0, -, ⟨x0, u0, oc, hopt⟩, hall⟩ := linear_thread fun _ => ""
  let progs : Nat → List (LAct (linearKind ℚ)) := fun t => if t = 0 then
    (WOp.create 0 a :: calls.map (fun op => .call 0 op)).map (fun op => .act op {}) else
    if t = 1 then [.act (.create 1 a) {}] else []
  have hmem : ∀ t, ∀ b ∈ progs t, ∃ op, b = .act op {} ∧ ∀ i ∈ involved op, i = t := by
    intro t b hb
    by_cases ht : t = 0
    · simp only [progs, if_pos ht] at hb
      obtain ⟨op, ho, rfl⟩ := List.mem_map.1 hb
      refine ⟨op, rfl, fun i hi => ?_⟩
      rcases List.mem_cons.1 ho with rfl | ho
      · rw [ht]; simpa [involved] using hi
      · obtain ⟨y, -, rfl⟩ := List.mem_map.1 ho
        rw [ht]; simpa [involved] using hi
    · by_cases h1 : t = 1
      · simp only [progs, if_neg ht, if_pos h1, List.mem_singleton] at hb
        exact ⟨_, hb, fun i hi => by rw [h1]; simpa [involved] using hi⟩
      · simp only [progs, if_neg ht, if_neg h1] at hb
        exact (nomatch hb)
  have ho : Owned id progs := fun t b hb i hi => by
    obtain ⟨op, rfl, h⟩ := hmem t b hb
    exact h i hi
  have hk : KeepsStream progs := fun t h => by
    obtain ⟨op, e, -⟩ := hmem t _ h
    cases e
  have hb := linearKind_build (a := a).2 ⟨m0, h0, rfl⟩
  obtain ⟨z, hz⟩ := linear_single (calls := []) hb rfl 1
  obtain ⟨l', o', hz', -⟩ := LogWorld.run_total (sp := linearSpeaker ℚ fun _ => "") (w := LogWorld.empty (linearKind ℚ)) {} hz
    (by intro h; cases h)
  obtain ⟨r, -, more, ⟨s, trace⟩, h1, h2⟩ := c101_runs (sp := linearSpeaker ℚ fun _ => "") (l := Logger.new) ho hk
    (by intro h; cases h) (by
    intro t
    by_cases ht : t = 0
    · simp only [progs, if_pos ht]
      exact hall 0
    · by_cases h1 : t = 1
      · simp only [progs, if_neg ht, if_pos h1]
        exact ⟨_, hz'⟩
      · simp only [progs, if_neg ht, if_neg h1]
        exact ⟨_, rfl⟩) (n := 2) (fun t ht => by simp only [progs]; rw [if_neg (by omega), if_neg (by omega)]) [0, 1, 0]
  refine ⟨progs, more, s, trace, ho, h1, fun t ht => ⟨?_, fun b hb => ?_⟩, ?_, ?_, h2⟩
  · obtain ⟨done, w', e1, e2, -⟩ := c101_as_alone ho hk h1 t
    rw [(h2 t).1, List.append_nil] at e1
    subst e1
    by_cases h1 : t = 1
    · simp only [progs, if_neg ht, if_pos h1] at e2
      rw [show LogWorld.run _ _ [LAct.act (WOp.create 1 a) {}] = _ from hz'] at e2
      have e3 := (Prod.mk.inj (Except.ok.inj e2)).2
      have hz2 : o' = [(none, [])] := by
        have c1 := World.step_create (w := World.empty (linearKind ℚ)) (i := 1) rfl hb
        obtain ⟨l1, f1, -⟩ := LogWorld.step_total (sp := linearSpeaker ℚ fun _ => "") (e := {})
          (w := LogWorld.empty (linearKind ℚ)) c1 (by intro h; cases h)
        have g1 := LogWorld.run_snoc (acts := []) (outs := []) (w := LogWorld.empty (linearKind ℚ)) rfl f1
        rw [show LogWorld.run _ _ ([] ++ [LAct.act (WOp.create 1 a) {}]) = _ from hz'] at g1
        exact (Prod.mk.inj (Except.ok.inj g1)).2
      rw [messagesOf, ← e3, hz2]
      rfl
    · simp only [progs, if_neg ht, if_neg h1] at e2
      have e3 := (Prod.mk.inj (Except.ok.inj e2)).2
      rw [messagesOf, ← e3]
      rfl
  · obtain ⟨op, rfl, -⟩ := hmem t b hb
    exact id
  · refine always_speaks (l := Logger.new) ho h1 (h2 0) (linear_optimize_speaks (i := 0) (x0 := x0) (u0 := u0) (oc := oc) (e := {})) ?_
    simp only [progs, if_true]
    exact List.mem_map.2 ⟨_, List.mem_cons_of_mem _ (List.mem_map.2 ⟨_, hopt, rfl⟩), rfl⟩
  · simp [progs]

/-- Non-vacuity of `c100_nonlinear`: two threads construct a controller each. -/
example : ∃ (progs : Nat → List (LAct (nonlinearKind dN ℚ))) (more : List Nat) (s : Threads (nonlinearKind dN ℚ)) (trace : _),
    Owned id progs ∧ (start Logger.new progs).run (nonlinearSpeaker dN ℚ fun _ => "") ([0, 1] ++ more) = .ok (s, trace) ∧
    (∀ t, Finished s t) ∧ ∀ t < 2, .act (.create t (fun _ => 0, false)) {} ∈ progs t := by
  obtain ⟨m, hi, -⟩ := dN_new
  have hb := nonlinearKind_build (a := (fun _ => (0 : ℚ), false)).2 ⟨m, hi, rfl⟩
  let progs : Nat → List (LAct (nonlinearKind dN ℚ)) := fun t => if t < 2 then [.act (.create t (fun _ => 0, false)) {}] else []
  have hmem : ∀ t, ∀ b ∈ progs t, b = .act (.create t (fun _ => 0, false)) {} := by
    intro t b hb
    by_cases ht : t < 2
    · simp only [progs, if_pos ht, List.mem_singleton] at hb
      exact hb
    · simp only [progs, if_neg ht] at hb
      exact (nomatch hb)
  have ho : Owned id progs := fun t b hb i hi => by
    rw [hmem t b hb] at hi
    simpa [names, involved] using hi
  obtain ⟨r, -, more, ⟨s, trace⟩, h1, h2⟩ := c101_runs (sp := nonlinearSpeaker dN ℚ fun _ => "") (l := Logger.new) ho
    (fun t h => by cases hmem t _ h) (by intro h; cases h) (by
    intro t
    by_cases ht : t < 2
    · simp only [progs, if_pos ht]
      have c1 := World.step_create (w := World.empty (nonlinearKind dN ℚ)) (i := t) rfl hb
      obtain ⟨l1, f1, -⟩ := LogWorld.step_total (sp := nonlinearSpeaker dN ℚ fun _ => "") (e := {})
        (w := LogWorld.empty (nonlinearKind dN ℚ)) c1 (by intro h; cases h)
      exact ⟨_, LogWorld.run_snoc (acts := []) (outs := []) (w := LogWorld.empty (nonlinearKind dN ℚ)) rfl f1⟩
    · simp only [progs, if_neg ht]
      exact ⟨_, rfl⟩) (n := 2) (fun t ht => if_neg (by omega)) [0, 1]
  refine ⟨progs, more, s, trace, ho, h1, h2, fun t ht => ?_⟩
  simp only [progs, if_pos ht]
  exact List.mem_cons_self

end Mpc.Props
