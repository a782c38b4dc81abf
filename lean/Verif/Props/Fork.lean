import Verif.Proofs.Fork
import Verif.Props.ThreadOrder

/-
C136: a program which sets up controllers in one thread and then starts threads which use them.
-/
namespace Mpc.Props
open Mpc.Spec Exec World Threads
set_option linter.unusedSectionVars false

variable {k : Kind} {sp : Speaker k} {owner : Nat → Nat} {main : List (LAct k)} {progs : Nat → List (LAct k)} {l : Logger}
  {w : LogWorld k} {outs : List (Option k.Out × List Msg)} {sched : List Nat} {s : Threads k}
  {trace : List (Nat × List Access)}

/-- C136 as stated: the program `main` sets up controllers, in one thread; the threads it then starts, each of which uses
controllers of its own, have no data race, whatever the schedule. -/
def C136Claim (sp : Speaker k) : Prop :=
  ∀ (owner : Nat → Nat) (main : List (LAct k)) (progs : Nat → List (LAct k)) (l : Logger) w outs (sched : List Nat) s trace,
    Owned owner progs → LogWorld.run sp ⟨World.empty k, l⟩ main = .ok (w, outs) →
    (fork w progs).run sp sched = .ok (s, trace) → ¬ Race trace

/-- the controllers the program has set up fall apart into those of the threads -/
theorem main_splits (hs : Settled owner main) (h0 : LogWorld.run sp ⟨World.empty k, l⟩ main = .ok (w, outs)) :
    ∃ home base, Split owner home w.world base ∧ ∀ t, mute sp (World.empty k) (share owner t main) =
      .ok (base t, shareOuts owner t main outs) :=
  split_run (w := ⟨World.empty k, l⟩) (home := fun _ => 0) split_empty hs h0

/-- C136, partial: when the program makes no copies for another thread, the accesses of a race between the threads are accesses
to the logger or to its stream: two threads never touch the same controller or the same optimizer. -/
theorem c136_only_logger_partial (hs : Settled owner main) (ho : Owned owner progs)
    (h0 : LogWorld.run sp ⟨World.empty k, l⟩ main = .ok (w, outs)) (hr : (fork w progs).run sp sched = .ok (s, trace)) {x y}
    (hx : x ∈ trace) (hy : y ∈ trace) (hn : x.1 ≠ y.1) {a b : Access} (ha : a ∈ x.2) (hb : b ∈ y.2) (hc : Conflict a b) :
    OfLogger a.loc := by
  obtain ⟨home, base, hsp, -⟩ := main_splits hs h0
  obtain ⟨home', -, -, -, h⟩ := run_inv (sp := sp) ho (inv_fork hsp progs) hr
  obtain ⟨x1, x2⟩ := h x hx
  obtain ⟨y1, y2⟩ := h y hy
  obtain ⟨la, wa⟩ := a
  obtain ⟨lb, wb⟩ := b
  obtain ⟨h1, -, -⟩ := hc
  have h1 : la = lb := h1
  subst h1
  cases la with
  | obj i => exact absurd ((x1 i _ ha).symm.trans (y1 i _ hb)) hn
  | opt p => exact absurd ((x2 p _ ha).1.symm.trans (y2 p _ hb).1) hn
  | _ => trivial

/-- C136, partial: when, besides, at most one of the threads writes messages or sets the logger, there is no race. -/
theorem c136_quiet_partial (hs : Settled owner main) (ho : Owned owner progs)
    (h0 : LogWorld.run sp ⟨World.empty k, l⟩ main = .ok (w, outs)) (hr : (fork w progs).run sp sched = .ok (s, trace)) (t0 : Nat)
    (hq : ∀ t, t ≠ t0 → messagesOf s t = [] ∧ ∀ a ∈ progs t, ¬ SetsLog a) : ¬ Race trace := by
  obtain ⟨home, base, hsp, -⟩ := main_splits hs h0
  rintro ⟨x, hx, y, hy, hn, a, ha, b, hb, hc⟩
  have hl := c136_only_logger_partial hs ho h0 hr hx hy hn ha hb hc
  by_cases h : x.1 = t0
  · have hy' : y.1 ≠ t0 := fun e => hn (h.trans e.symm)
    have hl' : OfLogger b.loc := by rw [← hc.1]; exact hl
    exact stays_away ho (inv_fork hsp progs) hr y.1 (hq _ hy').2 (hq _ hy').1 y hy rfl b hb hl'
  · exact stays_away ho (inv_fork hsp progs) hr x.1 (hq _ h).2 (hq _ h).1 x hx rfl a ha hl

/-- C136: two threads which have both finished and have both written a message since they were started have a data race. -/
theorem c136_messages_race (hr : (fork w progs).run sp sched = .ok (s, trace)) {t u : Nat} (htu : t ≠ u) (ht : Finished s t)
    (hu : Finished s u) (hmt : messagesOf s t ≠ []) (hmu : messagesOf s u ≠ []) : Race trace := by
  rcases has_written hr t hmt with ⟨x, hx, hxt, hxa⟩ | ⟨τ, hτ⟩
  · rcases has_written hr u hmu with ⟨y, hy, hyu, hya⟩ | ⟨τ, hτ⟩
    · exact ⟨x, hx, y, hy, by rw [hxt, hyu]; exact htu, _, hxa, _, hya, rfl, .inl rfl, by simp⟩
    · rw [hu.2] at hτ; exact (nomatch hτ)
  · rw [ht.2] at hτ; exact (nomatch hτ)

/-- a finished thread has written the messages of an action which always writes some -/
theorem fork_speaks (hs : Settled owner main) (ho : Owned owner progs)
    (h0 : LogWorld.run sp ⟨World.empty k, l⟩ main = .ok (w, outs)) (hr : (fork w progs).run sp sched = .ok (s, trace)) {t : Nat}
    (ht : Finished s t) {a : LAct k} (ha : ∀ w q, begin sp w a = .ok q → q.2.2.1.2 ≠ []) (hm : a ∈ progs t) :
    messagesOf s t ≠ [] := by
  obtain ⟨home, base, hsp, -⟩ := main_splits hs h0
  obtain ⟨home', hi, -⟩ := run_inv (sp := sp) ho (inv_fork hsp progs) hr
  obtain ⟨done, w', φ, h1, h2, -⟩ := hi.alone t
  have h1 : progs t = done ++ (s.threads t).todo := h1
  rw [ht.1, List.append_nil] at h1
  rw [h1] at hm
  exact mute_speaks ha hm h2

/-- C136 for the linear controller: two threads which both call `optimize`, each on a controller of its own, have a data race
in every schedule which lets them finish. -/
theorem c136_linear {K : Type} [Field K] [DecidableEq K] [LinearOrder K] [IsStrictOrderedRing K] {num : Ext K → String}
    {main : List (LAct (linearKind K))} {progs : Nat → List (LAct (linearKind K))} {w : LogWorld (linearKind K)} {outs}
    {s : Threads (linearKind K)} (hs : Settled owner main) (ho : Owned owner progs)
    (h0 : LogWorld.run (linearSpeaker K num) ⟨World.empty _, l⟩ main = .ok (w, outs))
    (hr : (fork w progs).run (linearSpeaker K num) sched = .ok (s, trace)) {t u : Nat} (htu : t ≠ u)
    (ht : Finished s t) (hu : Finished s u) {i j : Nat} {x0 u0 x0' u0' : Vec K} {oc oc' : OsqpOutcome K} {e e' : Said}
    (hi : .act (.call i (LOp.optimize x0 u0 oc)) e ∈ progs t) (hj : .act (.call j (LOp.optimize x0' u0' oc')) e' ∈ progs u) :
    Race trace :=
  c136_messages_race hr htu ht hu (fork_speaks hs ho h0 hr ht linear_optimize_speaks hi)
    (fork_speaks hs ho h0 hr hu linear_optimize_speaks hj)

theorem shareOuts_eq (t : Nat) : ∀ (main : List (LAct k)) (outs : List (Option k.Out × List Msg)),
    shareOuts owner t main outs = ((main.zip outs).filter fun x => concerns owner t x.1).map Prod.snd
  | [], _ => by simp [shareOuts]
  | _ :: _, [] => by simp [shareOuts]
  | a :: as, o :: os => by
    rw [shareOuts, shareOuts_eq t as os, List.zip_cons_cons, List.filter_cons]
    cases concerns owner t a <;> simp

/-- C136: whatever the schedule, what the actions of the program for a thread's controllers and then the actions the thread has
begun have returned, and have written as messages, is what they do in a program which consists of these actions alone, in one
thread, and the controllers of the thread are in the same state. -/
theorem c136_as_alone (hs : Settled owner main) (hm : LAct.setStream none ∉ main) (ho : Owned owner progs) (hk : KeepsStream progs)
    (h0 : LogWorld.run sp ⟨World.empty k, l⟩ main = .ok (w, outs)) (hr : (fork w progs).run sp sched = .ok (s, trace)) (t : Nat) :
    ∃ done w', progs t = done ++ (s.threads t).todo ∧
      (LogWorld.empty k).run sp (share owner t main ++ done) = .ok (w',
        ((main.zip outs).filter fun x => concerns owner t x.1).map Prod.snd ++ (s.threads t).outs) ∧
      ∀ i, owner i = t → s.world.view i = w'.world.view i := by
  obtain ⟨home, base, hsp, hb⟩ := main_splits hs h0
  obtain ⟨home', hi, -⟩ := run_inv (sp := sp) ho (inv_fork hsp progs) hr
  obtain ⟨done, w', φ, h1, h2, h3, -⟩ := hi.alone t
  have h1 : progs t = done ++ (s.threads t).todo := h1
  have h2' : mute sp (World.empty k) (share owner t main ++ done) = .ok (w', shareOuts owner t main outs ++ (s.threads t).outs) := by
    rw [mute_append, hb t]
    simp only [ok_bind]
    rw [show mute sp (base t) done = _ from h2]
    rfl
  obtain ⟨l', h4, -⟩ := (logWorld_run (sp := sp) (acts := share owner t main ++ done) (w := World.empty k) (l := Logger.new)
    (by intro h; cases h) (fun h => by
      rcases List.mem_append.1 h with h | h
      · exact hm (List.mem_filter.1 h).1
      · exact hk t (by rw [h1]; exact List.mem_append_left _ h))).2 _ h2'
  rw [← shareOuts_eq]
  exact ⟨done, ⟨w', l'⟩, h1, h4, fun i hi => h3.view hi⟩

/-- C136: if the actions of the program for each thread's controllers followed by the thread's actions run without fault in a
program of their own, every schedule of the threads does, and can be continued until all have finished. -/
theorem c136_runs (hs : Settled owner main) (hm : LAct.setStream none ∉ main) (ho : Owned owner progs) (hk : KeepsStream progs)
    (hl : l.os ≠ none) (h0 : LogWorld.run sp ⟨World.empty k, l⟩ main = .ok (w, outs))
    (ha : ∀ t, ∃ q, (LogWorld.empty k).run sp (share owner t main ++ progs t) = .ok q) {n : Nat} (hn : ∀ t, n ≤ t → progs t = [])
    (sched : List Nat) : ∃ r, (fork w progs).run sp sched = .ok r ∧
      ∃ more r', (fork w progs).run sp (sched ++ more) = .ok r' ∧ ∀ t, Finished r'.1 t := by
  obtain ⟨home, base, hsp, hb⟩ := main_splits hs h0
  have hos : w.log.os ≠ none := by
    obtain ⟨g1, g2⟩ := logWorld_run (sp := sp) (w := World.empty k) hl hm
    cases hq : mute sp (World.empty k) main with
    | error e => rw [g1 e hq] at h0; cases h0
    | ok q =>
      obtain ⟨l', g3, g4⟩ := g2 q hq
      rw [g3] at h0
      cases h0
      exact g4
  have ha' : ∀ t, ∃ q, mute sp (base t) (progs t) = .ok q := fun t => by
    obtain ⟨q, h⟩ := ha t
    cases hq : mute sp (World.empty k) (share owner t main ++ progs t) with
    | ok q =>
      rw [mute_append, hb t] at hq
      simp only [ok_bind, bind_eq_ok] at hq
      obtain ⟨z, hz, -⟩ := hq
      exact ⟨z, hz⟩
    | error e =>
      have := (logWorld_run (sp := sp) (l := Logger.new) (by intro h; cases h) (fun h => by
        rcases List.mem_append.1 h with h | h
        · exact hm (List.mem_filter.1 h).1
        · exact hk t h)).1 e hq
      rw [show LogWorld.run sp ⟨World.empty k, Logger.new⟩ (share owner t main ++ progs t) = _ from h] at this
      cases this
  obtain ⟨r, h1, h2⟩ := run_total ho hk ha' (sched := sched) (s := fork w progs) ⟨⟨home, inv_fork hsp progs⟩, hos, fun _ h => (nomatch h)⟩
  obtain ⟨more, r', g1, g2, g3, g4⟩ := finish_all ho hk ha' n h2
  refine ⟨r, h1, more, (r'.1, r.2 ++ r'.2), by rw [run_append, h1]; simp only [ok_bind, g1], fun t => ?_⟩
  by_cases ht : t < n
  · exact g3 t ht
  · -- a thread without a program has nothing to do
    have hd : Finished r.1 t := by
      have := run_induct (sp := sp) (P := fun s _ => (s.threads t).todo = [] ∧ (s.threads t).pending = []) ?_ (pre := [])
        (s := fork w progs) ⟨hn t (by omega), rfl⟩ h1
      · exact this
      intro s pre u q h hs
      rcases step_cases hs with ⟨op, ops, l, e1, e2, rfl⟩ | ⟨-, -, rfl⟩ | ⟨b, as, z, e1, e2, -, rfl⟩
      · by_cases hu : t = u
        · subst hu; rw [h.2] at e1; cases e1
        · simp only [put_ne hu]; exact h
      · exact h
      · by_cases hu : t = u
        · subst hu; rw [h.1] at e2; cases e2
        · simp only [put_ne hu]; exact h
    unfold Finished at hd ⊢
    rw [show (r'.1, r.2 ++ r'.2).1 = r'.1 from rfl, g4 t (by omega)]
    exact hd

theorem logWorld_append : ∀ {xs ys : List (LAct k)} {w w' w'' : LogWorld k} {os os'}, w.run sp xs = .ok (w', os) →
    w'.run sp ys = .ok (w'', os') → w.run sp (xs ++ ys) = .ok (w'', os ++ os')
  | [], ys, w, w', w'', os, os', h, h' => by cases h; exact h'
  | x :: xs, ys, w, w', w'', os, os', h, h' => by
    simp only [LogWorld.run, bind_eq_ok] at h
    obtain ⟨q, hq, z, hz, h⟩ := h
    cases h
    simp only [List.cons_append, LogWorld.run, hq, ok_bind, logWorld_append hz h']
    rfl

/-- C136: a schedule which switches threads only between actions continues the program as if it had gone on in one thread with
the same actions in the same order, whatever it has set up, copies and settings of the logger included. -/
theorem c136_whole_actions (h0 : LogWorld.run sp ⟨World.empty k, l⟩ main = .ok (w, outs))
    (hr : (fork w progs).run sp sched = .ok (s, trace)) (hu : Undivided sp (fork w progs) sched)
    (hp : ∀ t, (s.threads t).pending = []) : ∃ done : List (Nat × LAct k × Option k.Out × List Msg),
      (∀ t, progs t = ((done.filter fun x => x.1 = t).map fun x => x.2.1) ++ (s.threads t).todo) ∧
      (∀ t, (s.threads t).outs = (done.filter fun x => x.1 = t).map fun x => x.2.2) ∧
      LogWorld.run sp ⟨World.empty k, l⟩ (main ++ done.map fun x => x.2.1) =
        .ok (⟨s.world, s.log⟩, outs ++ done.map fun x => x.2.2) := by
  obtain ⟨done, h⟩ := whole_run (w0 := w) whole_start hu hr
  exact ⟨done, h.acts, h.outs, logWorld_append h0 (h.at (t := 0) (fun u _ => hp u) s.log (by
    rw [show ((s, trace).1.threads 0).pending = [] from hp 0]; rfl))⟩

/-! ### programs to instantiate the theorems with -/

/-- the program constructs two controllers; two threads configure one each and let it optimize -/
theorem two_forked (num : Ext ℚ → String) (sched : List Nat) : ∃ (main : List (LAct (linearKind ℚ)))
    (progs : Nat → List (LAct (linearKind ℚ))) (w : LogWorld (linearKind ℚ)) (outs : _) (more : List Nat)
    (s : Threads (linearKind ℚ)) (trace : _),
    Settled id main ∧ LAct.setStream none ∉ main ∧ main.length = 2 ∧ Owned id progs ∧ KeepsStream progs ∧
    (∀ t, ∃ q, (LogWorld.empty _).run (linearSpeaker ℚ num) (share id t main ++ progs t) = .ok q) ∧ (∀ t, 2 ≤ t → progs t = []) ∧
    LogWorld.run (linearSpeaker ℚ num) ⟨World.empty _, Logger.new⟩ main = .ok (w, outs) ∧
    (fork w progs).run (linearSpeaker ℚ num) (sched ++ more) = .ok (s, trace) ∧ (∀ t, Finished s t) ∧
    ∀ t < 2, ∃ i x0 u0 oc e, .act (.call i (LOp.optimize x0 u0 oc)) e ∈ progs t := by
  obtain ⟨a, m0, calls, h0, -, ⟨x0, u0, oc, hopt⟩, hall⟩ := linear_thread num
  let main : List (LAct (linearKind ℚ)) := [.act (.create 0 a) {}, .act (.create 1 a) {}]
  let progs : Nat → List (LAct (linearKind ℚ)) := fun t => if t < 2 then
    (calls.map (fun op => WOp.call t op)).map fun op => .act op {} else []
  have hmem : ∀ t, ∀ b ∈ progs t, ∃ op, b = .act op {} ∧ ∀ i ∈ involved op, i = t := by
    intro t b hb
    by_cases ht : t < 2
    · simp only [progs, if_pos ht] at hb
      obtain ⟨op, ho, rfl⟩ := List.mem_map.1 hb
      refine ⟨op, rfl, fun i hi => ?_⟩
      obtain ⟨y, -, rfl⟩ := List.mem_map.1 ho
      simpa [involved] using hi
    · simp only [progs, if_neg ht] at hb
      exact (nomatch hb)
  have ho : Owned id progs := fun t b hb i hi => by
    obtain ⟨op, rfl, h⟩ := hmem t b hb
    exact h i hi
  have hk : KeepsStream progs := fun t h => by
    obtain ⟨op, e, -⟩ := hmem t _ h
    cases e
  have hset : Settled id main := by
    intro b hb
    simp only [main, List.mem_cons, List.not_mem_nil, or_false] at hb
    rcases hb with rfl | rfl
    · exact ⟨0, by simp [names, involved]⟩
    · exact ⟨1, by simp [names, involved]⟩
  have hms : LAct.setStream none ∉ main := by
    intro hb
    simp only [main, List.mem_cons, List.not_mem_nil, or_false] at hb
    rcases hb with hb | hb <;> cases hb
  have hb := linearKind_build (a := a).2 ⟨m0, h0, rfl⟩
  have c0 := World.step_create (w := World.empty (linearKind ℚ)) (i := 0) rfl hb
  have c1 := World.step_create (w := (⟨World.set (World.empty (linearKind ℚ)).objs 0 (some ⟨(m0.d, m0.b), 0⟩),
    World.set (World.empty (linearKind ℚ)).heap 0 (some ⟨m0.o, 0⟩), 1⟩ : World (linearKind ℚ))) (i := 1) rfl hb
  obtain ⟨l1, f1, g1⟩ := LogWorld.step_total (sp := linearSpeaker ℚ num) (e := {}) (w := LogWorld.empty (linearKind ℚ)) c0
    (by intro h; cases h)
  obtain ⟨l2, f2, -⟩ := LogWorld.step_total (sp := linearSpeaker ℚ num) (e := {}) (w := ⟨_, l1⟩) c1 (by
    rw [g1]; intro h; cases h)
  have hmain := LogWorld.run_snoc (LogWorld.run_snoc (acts := []) (outs := []) (w := LogWorld.empty (linearKind ℚ)) rfl f1) f2
  have hall' : ∀ t, ∃ q, (LogWorld.empty _).run (linearSpeaker ℚ num) (share id t main ++ progs t) = .ok q := by
    intro t
    by_cases ht : t < 2
    · have e : share id t main ++ progs t = (WOp.create t a :: calls.map (fun op => .call t op)).map fun op => .act op {} := by
        simp only [progs, if_pos ht]
        match t, ht with
        | 0, _ => rfl
        | 1, _ => rfl
      rw [e]
      exact hall t
    · have e : share id t main ++ progs t = [] := by
        simp only [progs, if_neg ht, List.append_nil]
        have h0 : ¬ 0 = t := by omega
        have h1 : ¬ 1 = t := by omega
        simp [share, main, concerns, names, involved, h0, h1]
      rw [e]
      exact ⟨_, rfl⟩
  obtain ⟨r, -, more, ⟨s, trace⟩, h1, h2⟩ := c136_runs (sp := linearSpeaker ℚ num) (l := Logger.new) hset hms ho hk
    (by intro h; cases h) hmain hall' (n := 2) (fun t ht => if_neg (by omega)) sched
  refine ⟨main, progs, _, _, more, s, trace, hset, hms, rfl, ho, hk, hall', fun t ht => if_neg (by omega), hmain, h1, h2,
    fun t ht => ⟨t, x0, u0, oc, {}, ?_⟩⟩
  simp only [progs, if_pos ht]
  exact List.mem_map.2 ⟨_, List.mem_map.2 ⟨_, hopt, rfl⟩, rfl⟩

/-- C136 is violated: two threads which use a linear controller each have a data race. -/
theorem c136_violated : ∃ num, ¬ C136Claim (linearSpeaker ℚ num) := by
  refine ⟨fun _ => "", fun hc => ?_⟩
  obtain ⟨main, progs, w, outs, more, s, trace, hs, -, -, ho, -, -, -, h0, hr, hf, hopt⟩ := two_forked (fun _ => "") []
  obtain ⟨i, x0, u0, oc, e, hi⟩ := hopt 0 (by decide)
  obtain ⟨j, x0', u0', oc', e', hj⟩ := hopt 1 (by decide)
  exact hc id main progs Logger.new w outs _ s trace ho h0 hr (c136_linear hs ho h0 hr (by decide) (hf 0) (hf 1) hi hj)

/-- Non-vacuity of `c136_only_logger_partial`, `c136_messages_race`, `c136_linear`, `c136_as_alone`, `c136_runs`: the threads begin in
turns. -/
example : ∃ (main : List (LAct (linearKind ℚ))) (progs : Nat → List (LAct (linearKind ℚ))) (w : LogWorld (linearKind ℚ)) (outs : _)
    (more : List Nat) (s : Threads (linearKind ℚ)) (trace : _),
    Settled id main ∧ LAct.setStream none ∉ main ∧ main ≠ [] ∧ Owned id progs ∧ KeepsStream progs ∧
    (∀ t, ∃ q, (LogWorld.empty _).run (linearSpeaker ℚ fun _ => "") (share id t main ++ progs t) = .ok q) ∧
    LogWorld.run (linearSpeaker ℚ fun _ => "") ⟨World.empty _, Logger.new⟩ main = .ok (w, outs) ∧
    (fork w progs).run (linearSpeaker ℚ fun _ => "") ([0, 1, 0, 1] ++ more) = .ok (s, trace) ∧ (∀ t, Finished s t) ∧
    messagesOf s 0 ≠ [] ∧ messagesOf s 1 ≠ [] := by
  obtain ⟨main, progs, w, outs, more, s, trace, hs, hm, hlen, ho, hk, ha, -, h0, hr, hf, hopt⟩ := two_forked (fun _ => "") [0, 1, 0, 1]
  obtain ⟨i, x0, u0, oc, e, hi⟩ := hopt 0 (by decide)
  obtain ⟨j, x0', u0', oc', e', hj⟩ := hopt 1 (by decide)
  exact ⟨main, progs, w, outs, more, s, trace, hs, hm, (by rintro rfl; cases hlen), ho, hk, ha, h0, hr, hf,
    fork_speaks hs ho h0 hr (hf 0) linear_optimize_speaks hi, fork_speaks hs ho h0 hr (hf 1) linear_optimize_speaks hj⟩

/-- the setter of the example writes no message -/
theorem setter_silent (num : Ext ℚ → String) (w : World (nonlinearKind dN ℚ)) (i : Nat) (out : Option (NlOut ℚ)) :
    LogWorld.messages (nonlinearSpeaker dN ℚ num) w (.call i (NlCall.setDiscretizationSamplingTime 1)) out {} = [] := by
  simp only [LogWorld.messages]
  cases w.view i with
  | none => rfl
  | some v => cases out <;> rfl

/-- the program constructs a nonlinear controller 0 and then controller 1, as a copy or anew; two threads call a setter of one
of them each -/
theorem silent_pair (num : Ext ℚ → String) (copy : Bool) : ∃ (a : (nonlinearKind dN ℚ).Args)
    (w : LogWorld (nonlinearKind dN ℚ)) (outs : _) (s : Threads (nonlinearKind dN ℚ)) (trace : _),
    LogWorld.run (nonlinearSpeaker dN ℚ num) ⟨World.empty _, Logger.new⟩
      [.act (.create 0 a) {}, .act (if copy then .copy 0 1 else .create 1 a) {}] = .ok (w, outs) ∧
    (fork w fun t => if t < 2 then [.act (.call t (NlCall.setDiscretizationSamplingTime 1)) {}] else []).run
      (nonlinearSpeaker dN ℚ num) [0, 1] = .ok (s, trace) ∧
    Undivided (nonlinearSpeaker dN ℚ num)
      (fork w fun t => if t < 2 then [.act (.call t (NlCall.setDiscretizationSamplingTime 1)) {}] else []) [0, 1] ∧
    (∀ t, Finished s t) ∧ (∀ t, messagesOf s t = []) ∧
    (copy = true → (0, [⟨.obj 0, true⟩, ⟨.opt 0, true⟩]) ∈ trace ∧ (1, [⟨.obj 1, true⟩, ⟨.opt 0, true⟩]) ∈ trace) := by
  obtain ⟨m, hi, -⟩ := dN_new
  have hb := nonlinearKind_build (a := (fun _ => (0 : ℚ), false)).2 ⟨m, hi, rfl⟩
  have hstep : ∀ m : NlMpc dN ℚ, ∃ q, m.step (.setDiscretizationSamplingTime 1) = .ok q := fun m => ⟨_, rfl⟩
  have c0 := World.step_create (w := World.empty (nonlinearKind dN ℚ)) (i := 0) rfl hb
  obtain ⟨l1, f1, g1⟩ := LogWorld.step_total (sp := nonlinearSpeaker dN ℚ num) (e := {}) (w := LogWorld.empty (nonlinearKind dN ℚ))
    c0 (by intro h; cases h)
  -- the second controller, with its pointer and optimizer
  have c1 : ∃ (w2 : World (nonlinearKind dN ℚ)) (p : Nat) (h1 : (⟨World.set (World.empty (nonlinearKind dN ℚ)).objs 0 (some ⟨(), 0⟩),
      World.set (World.empty (nonlinearKind dN ℚ)).heap 0 (some ⟨m, 0⟩), 1⟩ : World (nonlinearKind dN ℚ)).step
        (if copy then .copy 0 1 else .create 1 (fun _ => (0 : ℚ), false)) = .ok (w2, none)), w2.objs 0 = some ⟨(), 0⟩ ∧
        w2.objs 1 = some ⟨(), p⟩ ∧ w2.heap 0 = some ⟨m, 0⟩ ∧ (∃ c, w2.heap p = some c) ∧ (copy = true → p = 0) := by
    cases copy with
    | true => exact ⟨_, 0, World.step_copy (i := 0) (j := 1) (o := ⟨(), 0⟩) rfl rfl rfl, rfl, rfl, rfl, ⟨_, rfl⟩, fun _ => rfl⟩
    | false => exact ⟨_, 1, World.step_create (i := 1) rfl hb, rfl, rfl, rfl, ⟨_, rfl⟩, fun h => (nomatch h)⟩
  obtain ⟨w2, p, c1, o0, o1, e0, ⟨c, ep⟩, hp⟩ := c1
  obtain ⟨l2, f2, -⟩ := LogWorld.step_total (sp := nonlinearSpeaker dN ℚ num) (e := {}) (w := ⟨_, l1⟩) c1 (by
    rw [g1]; intro h; cases h)
  have hmain := LogWorld.run_snoc (LogWorld.run_snoc (acts := []) (outs := []) (w := LogWorld.empty (nonlinearKind dN ℚ)) rfl f1) f2
  obtain ⟨q0, hq0⟩ := hstep m
  have hq0' := nonlinearKind_step.2 ⟨_, hq0, rfl⟩
  have d0 := World.step_call (k := nonlinearKind dN ℚ) (op := NlCall.setDiscretizationSamplingTime 1) o0 e0 rfl hq0'
  have o1' : World.set w2.objs 0 (some (⟨(), 0⟩ : Obj (nonlinearKind dN ℚ))) 1 = some ⟨(), p⟩ := (set_ne (by decide)).trans o1
  have hc' : ∃ c', World.set w2.heap 0 (some (⟨q0.1, 0⟩ : Cell (nonlinearKind dN ℚ))) p = some c' := by
    by_cases e : p = 0
    · subst e; exact ⟨_, set_self⟩
    · exact ⟨c, (set_ne e).trans ep⟩
  obtain ⟨c', hc'⟩ := hc'
  obtain ⟨q1, hq1⟩ := hstep c'.opt
  have hq1' := nonlinearKind_step.2 ⟨_, hq1, rfl⟩
  have d1 := World.step_call (k := nonlinearKind dN ℚ) (op := NlCall.setDiscretizationSamplingTime 1)
    (w := ⟨World.set w2.objs 0 (some ⟨(), 0⟩), World.set w2.heap 0 (some ⟨q0.1, 0⟩), w2.fresh⟩) (i := 1)
    o1' hc' rfl hq1'
  have b0 := begin_act (sp := nonlinearSpeaker dN ℚ num) (e := {}) (ms := []) d0 (setter_silent num _ _ _)
  have b1 := begin_act (sp := nonlinearSpeaker dN ℚ num) (e := {}) (ms := []) d1 (setter_silent num _ _ _)
  refine ⟨_, _, _, _, _, hmain, run_cons (step_begin (t := 0) rfl rfl b0) (run_cons (step_begin (t := 1) rfl rfl b1) rfl), ?_,
    fun t => ?_, fun t => ?_, fun hcp => ?_⟩
  · refine ⟨fun _ _ => rfl, fun r hr => ⟨fun u _ => ?_, fun _ _ => trivial⟩⟩
    have := hr.symm.trans (step_begin (t := 0) rfl rfl b0)
    cases this
    by_cases hu : u = 0
    · subst hu; rfl
    · simp only [put_ne hu]; rfl
  · match t with
    | 0 => exact ⟨rfl, rfl⟩
    | 1 => exact ⟨rfl, rfl⟩
    | n + 2 => exact ⟨if_neg (t := [LAct.act (.call (n + 2) (NlCall.setDiscretizationSamplingTime (d := dN) (1 : ℚ))) {}])
        (show ¬ n + 2 < 2 by omega), rfl⟩
  · match t with
    | 0 => rfl
    | 1 => rfl
    | n + 2 => rfl
  · have := hp hcp
    subst this
    have t0 : w2.touches (.call 0 (NlCall.setDiscretizationSamplingTime 1)) = [⟨.obj 0, true⟩, ⟨.opt 0, true⟩] := by
      simp only [World.touches, o0, e0]
      rfl
    have t1 : World.touches (⟨World.set w2.objs 0 (some ⟨(), 0⟩), World.set w2.heap 0 (some ⟨q0.1, 0⟩), w2.fresh⟩ :
        World (nonlinearKind dN ℚ)) (.call 1 (NlCall.setDiscretizationSamplingTime 1)) = [⟨.obj 1, true⟩, ⟨.opt 0, true⟩] := by
      simp only [World.touches, o1', hc']
      rfl
    exact ⟨by rw [← t0]; exact List.mem_cons_self, by rw [← t1]; exact List.mem_cons_of_mem _ List.mem_cons_self⟩

/-- C136 is violated for copies: the program copies a nonlinear controller; two threads which use one of the two each, and write
no message, have a race, on the optimizer which the copies share. -/
theorem c136_copies_violated : ∃ (main : List (LAct (nonlinearKind dN ℚ))) (progs : Nat → List (LAct (nonlinearKind dN ℚ)))
    (w : LogWorld (nonlinearKind dN ℚ)) (outs : _) (sched : List Nat) (s : Threads (nonlinearKind dN ℚ)) (trace : _),
    Owned id progs ∧ (∀ t, ∀ a ∈ progs t, ¬ SetsLog a) ∧
    LogWorld.run (nonlinearSpeaker dN ℚ fun _ => "") ⟨World.empty _, Logger.new⟩ main = .ok (w, outs) ∧
    (fork w progs).run (nonlinearSpeaker dN ℚ fun _ => "") sched = .ok (s, trace) ∧ (∀ t, Finished s t) ∧
    (∀ t, messagesOf s t = []) ∧
    ∃ x ∈ trace, ∃ y ∈ trace, x.1 ≠ y.1 ∧ ∃ a ∈ x.2, ∃ b ∈ y.2, Conflict a b ∧ ¬ OfLogger a.loc := by
  obtain ⟨a, w, outs, s, trace, h0, h1, -, h2, h3, h4⟩ := silent_pair (fun _ => "") true
  obtain ⟨hx, hy⟩ := h4 rfl
  have hmem : ∀ t, ∀ b ∈ (if t < 2 then [LAct.act (.call t (NlCall.setDiscretizationSamplingTime 1)) {}] else [] :
      List (LAct (nonlinearKind dN ℚ))), b = .act (.call t (NlCall.setDiscretizationSamplingTime 1)) {} := by
    intro t b hb
    by_cases ht : t < 2
    · rw [if_pos ht] at hb; exact List.mem_singleton.1 hb
    · rw [if_neg ht] at hb; exact (nomatch hb)
  refine ⟨_, _, w, outs, _, s, trace, fun t b hb i hi => ?_, fun t b hb => ?_, h0, h1, h2, h3, _, hx, _, hy, by decide,
    ⟨.opt 0, true⟩, by simp, ⟨.opt 0, true⟩, by simp, ⟨rfl, .inl rfl, by simp⟩, id⟩
  · rw [hmem t b hb] at hi
    simpa [names, involved] using hi
  · rw [hmem t b hb]
    exact id

/-- Non-vacuity of `c136_quiet_partial`, and of `c136_whole_actions` with and without a copy: two threads call a setter each. -/
example (copy : Bool) : ∃ (main : List (LAct (nonlinearKind dN ℚ))) (progs : Nat → List (LAct (nonlinearKind dN ℚ)))
    (w : LogWorld (nonlinearKind dN ℚ)) (outs : _) (sched : List Nat) (s : Threads (nonlinearKind dN ℚ)) (trace : _),
    (copy = false → Settled id main) ∧ Owned id progs ∧ progs 0 ≠ [] ∧ progs 1 ≠ [] ∧
    LogWorld.run (nonlinearSpeaker dN ℚ fun _ => "") ⟨World.empty _, Logger.new⟩ main = .ok (w, outs) ∧
    (fork w progs).run (nonlinearSpeaker dN ℚ fun _ => "") sched = .ok (s, trace) ∧
    Undivided (nonlinearSpeaker dN ℚ fun _ => "") (fork w progs) sched ∧ (∀ t, (s.threads t).pending = []) ∧
    ∀ t, t ≠ 0 → messagesOf s t = [] ∧ ∀ a ∈ progs t, ¬ SetsLog a := by
  obtain ⟨a, w, outs, s, trace, h0, h1, hu, h2, h3, -⟩ := silent_pair (fun _ => "") copy
  have hmem : ∀ t, ∀ b ∈ (if t < 2 then [LAct.act (.call t (NlCall.setDiscretizationSamplingTime 1)) {}] else [] :
      List (LAct (nonlinearKind dN ℚ))), b = .act (.call t (NlCall.setDiscretizationSamplingTime 1)) {} := by
    intro t b hb
    by_cases ht : t < 2
    · rw [if_pos ht] at hb; exact List.mem_singleton.1 hb
    · rw [if_neg ht] at hb; exact (nomatch hb)
  refine ⟨_, _, w, outs, _, s, trace, fun hc b hb => ?_, fun t b hb i hi => ?_, by simp, by simp, h0, h1, hu,
    fun t => (h2 t).2, fun t _ => ⟨h3 t, fun b hb => ?_⟩⟩
  · subst hc
    simp only [List.mem_cons, List.not_mem_nil, or_false] at hb
    rcases hb with rfl | rfl
    · exact ⟨0, by simp [names, involved]⟩
    · exact ⟨1, by simp [names, involved]⟩
  · rw [hmem t b hb] at hi
    simpa [names, involved] using hi
  · rw [hmem t b hb]
    exact id

end Mpc.Props
