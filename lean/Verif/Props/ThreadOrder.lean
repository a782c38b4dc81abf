import Verif.Props.Threads

/-
C101, C102, continued: schedules which switch threads only between actions, as when the program puts every action under one
lock.
-/
namespace Mpc.Props
open Mpc.Spec Exec World Threads

variable {k : Kind} {sp : Speaker k} {owner : Nat → Nat} {progs : Nat → List (LAct k)} {l : Logger} {sched : List Nat}
  {s : Threads k} {trace : List (Nat × List Access)} {w0 : LogWorld k}

/-- an action begun, and then its operations on the logger: the action in a program of one thread -/
theorem begin_whole {w : World k} {l l' : Logger} {a : LAct k} {r} (h : begin sp w a = .ok r) (hl : l.exec r.2.1 = .ok l') :
    LogWorld.step sp ⟨w, l⟩ a = .ok (⟨r.1, l'⟩, r.2.2.1) := by
  have one : ∀ {op : Logger.Op}, l.exec [op] = .ok l' → l.step op = .ok l' := fun {op} h => by
    simp only [Logger.exec, bind_eq_ok] at h
    obtain ⟨q, hq, h⟩ := h
    cases h
    exact hq
  cases a with
  | act op e =>
    simp only [begin, bind_eq_ok] at h
    obtain ⟨q, hq, h⟩ := h
    cases h
    simp only at hl
    simp only [LogWorld.step, hq, ok_bind, hl]
    rfl
  | setLoggerLevel i v =>
    simp only [begin, bind_eq_ok] at h
    obtain ⟨q, hq, h⟩ := h
    cases h
    simp only [LogWorld.step, hq, ok_bind, one hl]
    rfl
  | setLoggerPrefix i v =>
    simp only [begin, bind_eq_ok] at h
    obtain ⟨q, hq, h⟩ := h
    cases h
    simp only [LogWorld.step, hq, ok_bind, one hl]
    rfl
  | setStream os =>
    cases h
    simp only [LogWorld.step, ok_bind, one hl]
    rfl
  | resetLog =>
    cases h
    simp only [LogWorld.step, ok_bind, one hl]
    rfl

theorem logWorld_snoc {a : LAct k} : ∀ {acts : List (LAct k)} {w w' w'' : LogWorld k} {outs r}, w.run sp acts = .ok (w', outs) →
    w'.step sp a = .ok (w'', r) → w.run sp (acts ++ [a]) = .ok (w'', outs ++ [r])
  | [], w, w', w'', outs, r, h, h' => by
    cases h
    simp only [List.nil_append, LogWorld.run, h', ok_bind]
    rfl
  | b :: bs, w, w', w'', outs, r, h, h' => by
    simp only [LogWorld.run, bind_eq_ok] at h
    obtain ⟨q, hq, z, hz, h⟩ := h
    cases h
    simp only [List.cons_append, LogWorld.run, hq, ok_bind, logWorld_snoc hz h']
    rfl

/-- what holds after every undivided schedule: the actions begun, in their order, are a program of one thread which leads to
this state once the action in progress is completed -/
structure Whole (sp : Speaker k) (progs : Nat → List (LAct k)) (w0 : LogWorld k) (s : Threads k)
    (done : List (Nat × LAct k × Option k.Out × List Msg)) : Prop where
  acts : ∀ t, progs t = ((done.filter fun x => x.1 = t).map fun x => x.2.1) ++ (s.threads t).todo
  outs : ∀ t, (s.threads t).outs = (done.filter fun x => x.1 = t).map fun x => x.2.2
  busy : ∃ t, (∀ u, u ≠ t → (s.threads u).pending = []) ∧ ∀ l', s.log.exec (s.threads t).pending = .ok l' →
    LogWorld.run sp w0 (done.map fun x => x.2.1) = .ok (⟨s.world, l'⟩, done.map fun x => x.2.2)

/-- the thread which steps is the one in the middle of an action, if there is one -/
theorem Whole.at {done} (h : Whole sp progs w0 s done) {t : Nat} (ht : ∀ u, u ≠ t → (s.threads u).pending = []) (l' : Logger)
    (hl : s.log.exec (s.threads t).pending = .ok l') :
    LogWorld.run sp w0 (done.map fun x => x.2.1) = .ok (⟨s.world, l'⟩, done.map fun x => x.2.2) := by
  obtain ⟨u, h1, h2⟩ := h.busy
  by_cases e : t = u
  · subst e; exact h2 l' hl
  · refine h2 l' ?_
    rw [ht u (Ne.symm e)]
    rw [h1 t e] at hl
    exact hl

theorem whole_run : ∀ {sched : List Nat} {s : Threads k} {done r}, Whole sp progs w0 s done → Undivided sp s sched →
    s.run sp sched = .ok r → ∃ done', Whole sp progs w0 r.1 done'
  | [], s, done, r, h, _, hr => by cases hr; exact ⟨done, h⟩
  | t :: ts, s, done, r, h, hu, hr => by
    simp only [Threads.run, bind_eq_ok] at hr
    obtain ⟨q, hq, z, hz, hr⟩ := hr
    cases hr
    suffices ∃ done', Whole sp progs w0 q.1 done' by
      obtain ⟨done', h'⟩ := this
      exact whole_run (r := z) h' (hu.2 q hq) hz
    rcases step_cases hq with ⟨op, ops, l1, e1, e2, rfl⟩ | ⟨-, -, rfl⟩ | ⟨a, as, b, e1, e2, e3, rfl⟩
    · refine ⟨done, fun u => ?_, fun u => ?_, t, fun u hne => ?_, fun l' hl => ?_⟩
      · rw [h.acts u]
        by_cases e : u = t
        · subst e; simp [put]
        · simp only [put_ne e]
      · by_cases e : u = t
        · subst e; simpa [put] using h.outs u
        · simp only [put_ne e]; exact h.outs u
      · simp only [put_ne hne]; exact hu.1 u hne
      · refine h.at hu.1 l' ?_
        have hl : l1.exec ops = .ok l' := by simpa [put] using hl
        rw [e1, Logger.exec, e2]
        exact hl
    · exact ⟨done, h⟩
    · have h0 := h.at hu.1 s.log (by rw [e1]; rfl)
      refine ⟨done ++ [(t, a, b.2.2.1)], fun u => ?_, fun u => ?_, t, fun u hne => ?_, fun l' hl => ?_⟩
      · rw [h.acts u, List.filter_append, List.map_append, List.append_assoc]
        by_cases e : u = t
        · subst e; simp [put, e2]
        · simp only [put_ne e]; simp [Ne.symm e]
      · rw [List.filter_append, List.map_append]
        by_cases e : u = t
        · subst e
          simp only [put, if_true, h.outs u]
          simp
        · simp only [put_ne e, h.outs u]; simp [Ne.symm e]
      · simp only [put_ne hne]; exact hu.1 u hne
      · have hl : s.log.exec b.2.1 = .ok l' := by simpa [put] using hl
        rw [List.map_append, List.map_append]
        exact logWorld_snoc h0 (begin_whole e3 hl)

theorem whole_start : Whole sp progs w0 (fork w0 progs) [] :=
  ⟨fun _ => rfl, fun _ => rfl, 0, fun _ _ => rfl, fun l' h => by cases h; rfl⟩

/-- C101: a schedule which switches threads only between actions is the program of one thread which does the same actions in
the same order: the controllers, the settings and streams of the logger, and what every call returns and reports are the
same, settings of the logger included. -/
theorem c101_whole_actions (hr : (start l progs).run sp sched = .ok (s, trace)) (hu : Undivided sp (start l progs) sched)
    (hp : ∀ t, (s.threads t).pending = []) : ∃ done : List (Nat × LAct k × Option k.Out × List Msg),
      (∀ t, progs t = ((done.filter fun x => x.1 = t).map fun x => x.2.1) ++ (s.threads t).todo) ∧
      (∀ t, (s.threads t).outs = (done.filter fun x => x.1 = t).map fun x => x.2.2) ∧
      LogWorld.run sp ⟨World.empty k, l⟩ (done.map fun x => x.2.1) = .ok (⟨s.world, s.log⟩, done.map fun x => x.2.2) := by
  obtain ⟨done, h⟩ := whole_run (w0 := ⟨World.empty k, l⟩) whole_start hu hr
  exact ⟨done, h.acts, h.outs, h.at (t := 0) (fun u _ => hp u) s.log (by
    rw [show ((s, trace).1.threads 0).pending = [] from hp 0]; rfl)⟩

/-- the text a program of one thread writes when it leaves the settings of the logger alone -/
theorem logWorld_text : ∀ {acts : List (LAct k)} {w w' : LogWorld k} {outs}, w.run sp acts = .ok (w', outs) →
    (∀ a ∈ acts, ¬ SetsLog a) → w'.log.os = w.log.os ∧ w'.log.pfx = w.log.pfx ∧
      w'.log.thresholdLevel = w.log.thresholdLevel ∧ ∀ st, w'.log.text st = w.log.text st ++
        (if w.log.os = some st then shown w.log.thresholdLevel w.log.pfx (outs.flatMap Prod.snd) else "")
  | [], w, w', outs, h, _ => by
    cases h
    exact ⟨rfl, rfl, rfl, fun st => by simp [shown]⟩
  | a :: as, w, w', outs, h, ha => by
    simp only [LogWorld.run, bind_eq_ok] at h
    obtain ⟨q, hq, z, hz, h⟩ := h
    cases h
    have hn := ha a List.mem_cons_self
    cases a with
    | act op e =>
      simp only [LogWorld.step, bind_eq_ok] at hq
      obtain ⟨r, hr, l', hl, hq⟩ := hq
      cases hq
      obtain ⟨a1, a2, a3, a4⟩ := say_all hl
      obtain ⟨b1, b2, b3, b4⟩ := logWorld_text hz fun a h => ha a (List.mem_cons_of_mem _ h)
      simp only at b1 b2 b3 b4
      refine ⟨b1.trans a1, b2.trans a2, b3.trans a3, fun st => ?_⟩
      rw [b4, a4, a1, a2, a3, List.flatMap_cons]
      by_cases hc : w.log.os = some st
      · rw [if_pos hc, if_pos hc, if_pos hc, shown_append, String.append_assoc]
      · rw [if_neg hc, if_neg hc, if_neg hc]
    | _ => exact absurd trivial hn

/-- C102, partial: the claim holds for every schedule which switches threads only between actions. (Missing: the others.) -/
theorem c102_undivided_partial (hq : ∀ t, ∀ a ∈ progs t, ¬ SetsLog a) (hr : (start l progs).run sp sched = .ok (s, trace))
    (hu : Undivided sp (start l progs) sched) (hf : ∀ t, Finished s t) :
    ∃ ms, Interleaving (messagesOf s) ms ∧
      ∀ st, s.log.text st = l.text st ++ (if l.os = some st then shown l.thresholdLevel l.pfx ms else "") := by
  obtain ⟨done, h1, h2, h3⟩ := c101_whole_actions hr hu fun t => (hf t).2
  refine ⟨(done.map fun x => x.2.2).flatMap Prod.snd,
    ⟨done.flatMap fun x => x.2.2.2.map fun m => (x.1, m), ?_, fun t => ?_⟩, fun st => ?_⟩
  · rw [List.map_flatMap, List.flatMap_map]
    refine congrArg (fun f => done.flatMap f) (funext fun x => ?_)
    rw [List.map_map]
    exact (List.map_id _).symm
  · rw [messagesOf, h2 t]
    clear h1 h2 h3
    induction done with
    | nil => rfl
    | cons x xs ih =>
      rw [List.flatMap_cons, List.filter_append, List.map_append, ih, List.filter_cons]
      by_cases e : x.1 = t
      · rw [if_pos (by simpa using e), List.map_cons, List.flatMap_cons]
        congr 1
        rw [List.filter_eq_self.2 (by simp [e]), List.map_map]
        exact List.map_id _
      · rw [if_neg (by simpa using e), List.filter_eq_nil_iff.2 (by simp [e])]
        rfl
  · refine (logWorld_text h3 fun a ha => ?_).2.2.2 st
    obtain ⟨x, hx, rfl⟩ := List.mem_map.1 ha
    refine hq x.1 _ ?_
    rw [h1 x.1]
    exact List.mem_append_left _ (List.mem_map.2 ⟨x, List.mem_filter.2 ⟨hx, by simp⟩, rfl⟩)

/-- a thread doing all its actions is an undivided schedule -/
theorem undivided_one (t : Nat) : ∀ (n : Nat) {s : Threads k}, (∀ u, u ≠ t → (s.threads u).pending = []) →
    Undivided sp s (List.replicate n t)
  | 0, _, _ => trivial
  | n + 1, s, h => ⟨h, fun r hr => undivided_one t n fun u hu => by
      rcases step_cases hr with ⟨op, ops, l, e1, e2, rfl⟩ | ⟨-, -, rfl⟩ | ⟨b, as, z, e1, e2, -, rfl⟩
      · simp only [put_ne hu]; exact h u hu
      · exact h u hu
      · simp only [put_ne hu]; exact h u hu⟩

theorem undivided_append : ∀ {xs ys : List Nat} {s : Threads k}, Undivided sp s xs →
    (∀ q, s.run sp xs = .ok q → Undivided sp q.1 ys) → Undivided sp s (xs ++ ys)
  | [], _, _, _, h => h _ rfl
  | x :: xs, ys, s, hx, h => ⟨hx.1, fun r hr => undivided_append (hx.2 r hr) fun q hq => h (q.1, (x, r.2) :: q.2) (by
      simp only [Threads.run, hr, hq, ok_bind]; rfl)⟩

/-- the threads one after the other -/
theorem one_by_one {base : Nat → World k} (ho : Owned owner progs) (hk : KeepsStream progs)
    (ha : ∀ t, ∃ q, mute sp (base t) (progs t) = .ok q) : ∀ n {s : Threads k}, Good sp owner base progs s →
      (∀ t, (s.threads t).pending = []) → ∃ sched r, s.run sp sched = .ok r ∧ Undivided sp s sched ∧ Good sp owner base progs r.1 ∧
        (∀ t, (r.1.threads t).pending = []) ∧ (∀ t < n, Finished r.1 t) ∧ ∀ u, n ≤ u → r.1.threads u = s.threads u := by
  intro n
  induction n with
  | zero => exact fun {s} hg hp => ⟨[], _, rfl, trivial, hg, hp, fun t h => absurd h (by omega), fun _ _ => rfl⟩
  | succ n ih =>
    intro s hg hp
    obtain ⟨more, r, h1, hu, h2, hp', h3, h4⟩ := ih hg hp
    obtain ⟨c, q, g1, g2, g3, g4⟩ := finish_one ho hk ha n _ _ h2 rfl rfl
    refine ⟨more ++ List.replicate c n, (q.1, r.2 ++ q.2), by rw [run_append, h1]; simp only [ok_bind, g1],
      undivided_append hu fun z hz => ?_, g2, fun t => ?_, fun t ht => ?_, fun u hn => ?_⟩
    · rw [h1] at hz
      cases hz
      exact undivided_one n c fun u _ => hp' u
    · by_cases e : t = n
      · subst e; exact g3.2
      · simp only [g4 t e]; exact hp' t
    · by_cases e : t = n
      · subst e; exact g3
      · have := h3 t (by omega)
        unfold Finished at this ⊢
        simp only [g4 t e]
        exact this
    · simp only [g4 u (by omega)]
      exact h4 u (by omega)

/-- Non-vacuity of `c101_whole_actions` and `c102_undivided_partial`: two threads, each with a linear controller which it
constructs, configures and lets optimize, one after the other. -/
example : ∃ (progs : Nat → List (LAct (linearKind ℚ))) (sched : List Nat) (s : Threads (linearKind ℚ)) (trace : _),
    Owned id progs ∧ (∀ t, ∀ a ∈ progs t, ¬ SetsLog a) ∧
    (start Logger.new progs).run (linearSpeaker ℚ fun _ => "") sched = .ok (s, trace) ∧
    Undivided (linearSpeaker ℚ fun _ => "") (start Logger.new progs) sched ∧ (∀ t, Finished s t) ∧
    messagesOf s 0 ≠ [] ∧ messagesOf s 1 ≠ [] := by
  obtain ⟨progs, more, s, trace, ho, hk, hq, hr, hf, hopt, hn⟩ := two_threads (fun _ => "") (l := Logger.new)
    (by intro h; cases h) []
  have ha : ∀ t, ∃ q, mute (linearSpeaker ℚ fun _ => "") (World.empty _) (progs t) = .ok q := fun t => by
    obtain ⟨home, hi, -⟩ := run_inv ho (home := fun _ => 0) inv_start hr
    obtain ⟨done, w', φ, h1, h2, -⟩ := hi.alone t
    have h1 : progs t = done ++ (s.threads t).todo := h1
    rw [(hf t).1, List.append_nil] at h1
    rw [h1]
    exact ⟨_, h2⟩
  obtain ⟨sched, ⟨s', trace'⟩, h1, h2, -, -, h5, h6⟩ := one_by_one ho hk ha 2 (good_start (l := Logger.new) (by intro h; cases h))
    fun _ => rfl
  have hf' : ∀ t, Finished s' t := fun t => by
    by_cases ht : t < 2
    · exact h5 t ht
    · have := h6 t (by omega)
      unfold Finished
      rw [show s'.threads t = _ from this]
      exact ⟨hn t (by omega), rfl⟩
  obtain ⟨i, x0, u0, oc, e, hi⟩ := hopt 0 (by decide)
  obtain ⟨j, x0', u0', oc', e', hj⟩ := hopt 1 (by decide)
  exact ⟨progs, sched, s', trace', ho, hq, h1, h2, hf', always_speaks ho h1 (hf' 0) linear_optimize_speaks hi,
    always_speaks ho h1 (hf' 1) linear_optimize_speaks hj⟩

end Mpc.Props
