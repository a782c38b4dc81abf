import Verif.Proofs.ThreadRuns

/-
Programs which construct and configure controllers before they start threads.
-/
namespace Mpc
open Exec Spec World
variable {k : Kind} {owner home : Nat → Nat} {sp : Speaker k} {base : Nat → World k}

namespace Threads

/-- a step of a program of one thread is the first step of its action, up to the logger -/
theorem logWorld_begin {w w' : LogWorld k} {a : LAct k} {r} (h : w.step sp a = .ok (w', r)) :
    ∃ q, begin sp w.world a = .ok q ∧ q.1 = w'.world ∧ q.2.2.1 = r := by
  cases a with
  | act op e =>
    simp only [LogWorld.step, bind_eq_ok] at h
    obtain ⟨q, hq, l, -, h⟩ := h
    cases h
    exact ⟨(q.1, _, (q.2, LogWorld.messages sp w.world op q.2 e), w.world.touches op), by simp only [begin, hq, ok_bind]; rfl,
      rfl, rfl⟩
  | setLoggerLevel i v =>
    simp only [LogWorld.step, bind_eq_ok] at h
    obtain ⟨q, hq, l, -, h⟩ := h
    cases h
    exact ⟨(w.world, [.setLevel v], (none, []), []), by simp only [begin, hq, ok_bind]; rfl, rfl, rfl⟩
  | setLoggerPrefix i v =>
    simp only [LogWorld.step, bind_eq_ok] at h
    obtain ⟨q, hq, l, -, h⟩ := h
    cases h
    exact ⟨(w.world, [.setPrefix v], (none, []), []), by simp only [begin, hq, ok_bind]; rfl, rfl, rfl⟩
  | setStream os =>
    simp only [LogWorld.step, bind_eq_ok] at h
    obtain ⟨l, -, h⟩ := h
    cases h
    exact ⟨_, rfl, rfl, rfl⟩
  | resetLog =>
    simp only [LogWorld.step, bind_eq_ok] at h
    obtain ⟨l, -, h⟩ := h
    cases h
    exact ⟨_, rfl, rfl, rfl⟩

/-- an action which names no controller leaves the controllers alone -/
theorem begin_nameless {w : World k} {a : LAct k} (ha : names a = []) {q} (h : begin sp w a = .ok q) : q.1 = w := by
  cases a with
  | act op e => cases op <;> simp [names, involved] at ha
  | setLoggerLevel i v => simp [names] at ha
  | setLoggerPrefix i v => simp [names] at ha
  | setStream os => cases h; rfl
  | resetLog => cases h; rfl

/-- the controllers fall apart into those of the threads; `base t` is a world with those of thread `t` -/
structure Split (owner home : Nat → Nat) (w : World k) (base : Nat → World k) : Prop where
  homes : Homes owner home w
  alone : ∀ t, ∃ φ, Sim (fun i => owner i = t) φ w (base t) ∧ ∀ p p', φ p p' → home p = t

theorem split_empty : Split owner home (World.empty k) fun _ => World.empty k :=
  ⟨homes_empty, fun _ => ⟨fun _ _ => False, ⟨fun _ _ => .inl ⟨rfl, rfl⟩, fun _ _ h => h.elim, fun _ _ _ _ h => h.elim⟩,
    fun _ _ h => h.elim⟩⟩

/-- one action of the program before the threads -/
theorem split_step {w : World k} (h : Split owner home w base) {a : LAct k} (ha : ∃ t, ∀ i ∈ names a, owner i = t) {q}
    (hq : begin sp w a = .ok q) : ∃ home' base', Split owner home' q.1 base' ∧ ∀ t, mute sp (base t) (share owner t [a]) =
      .ok (base' t, if concerns owner t a then [q.2.2.1] else []) := by
  by_cases hn : names a = []
  · refine ⟨home, base, by rw [begin_nameless hn hq]; exact h, fun t => ?_⟩
    have : concerns owner t a = false := by simp [concerns, hn]
    simp [share, this, mute]
  obtain ⟨t, ht⟩ := ha
  have hc : ∀ u, concerns owner u a = decide (u = t) := fun u => by
    obtain ⟨i, hi⟩ := List.exists_mem_of_ne_nil _ hn
    by_cases hu : u = t
    · subst hu
      simp only [concerns, decide_true]
      exact List.any_eq_true.2 ⟨i, hi, by simpa using ht i hi⟩
    · simp only [hu, decide_false]
      refine List.any_eq_false.2 fun j hj => ?_
      rw [ht j hj]
      simpa using Ne.symm hu
  have hf := begin_framed h.homes ht hq
  obtain ⟨φ, h3, h4⟩ := h.alone t
  have hb := begin_sim (sp := sp) h3 ht
  rw [hq] at hb
  cases hb' : begin sp (base t) a with
  | error e => rw [hb'] at hb; exact hb.elim
  | ok q' =>
    rw [hb'] at hb
    obtain ⟨φ', hφ, hh⟩ := hb.sim
    refine ⟨moved home w.fresh t, fun u => if u = t then q'.1 else base u, ⟨hf.homes, fun u => ?_⟩, fun u => ?_⟩
    · by_cases hu : u = t
      · subst hu
        simp only [if_true]
        refine ⟨φ', hφ, fun p p' hp => ?_⟩
        rcases hh p p' hp with hp | hp
        · have := (h3.cell _ _ hp).1
          exact (if_neg (by omega)).trans (h4 _ _ hp)
        · exact if_pos hp
      · simp only [if_neg hu]
        obtain ⟨ψ, g3, g4⟩ := h.alone u
        refine ⟨ψ, g3.frame (fun i hi => hf.objs i (by rw [hi]; exact hu))
          (fun p p' hp => hf.heap p (g3.cell _ _ hp).1 (by rw [g4 _ _ hp]; exact hu)) hf.fresh, fun p p' hp => ?_⟩
        have := (g3.cell _ _ hp).1
        exact (if_neg (by omega)).trans (g4 _ _ hp)
    · by_cases hu : u = t
      · subst hu
        simp only [share, List.filter_cons, hc, decide_true, if_true, List.filter_nil, mute, hb', ok_bind]
        rw [hb.out]
        rfl
      · simp [share, hc, hu, mute]

/-- what the actions of thread `t` returned, among the results of all actions -/
def shareOuts (owner : Nat → Nat) (t : Nat) : List (LAct k) → List (Option k.Out × List Msg) → List (Option k.Out × List Msg)
  | a :: as, o :: os => (if concerns owner t a then [o] else []) ++ shareOuts owner t as os
  | _, _ => []

/-- the whole program before the threads -/
theorem split_run : ∀ {main : List (LAct k)} {w w' : LogWorld k} {outs} {home : Nat → Nat} {base : Nat → World k},
    Split owner home w.world base → Settled owner main → w.run sp main = .ok (w', outs) →
    ∃ home' base', Split owner home' w'.world base' ∧ ∀ t, mute sp (base t) (share owner t main) =
      .ok (base' t, shareOuts owner t main outs)
  | [], w, w', outs, home, base, h, _, hr => by
    cases hr
    exact ⟨home, base, h, fun _ => rfl⟩
  | a :: as, w, w', outs, home, base, h, ha, hr => by
    simp only [LogWorld.run, bind_eq_ok] at hr
    obtain ⟨⟨w1, r⟩, h1, ⟨w2, os⟩, h2, hr⟩ := hr
    cases hr
    obtain ⟨q, hq, e1, e2⟩ := logWorld_begin h1
    obtain ⟨home1, base1, g1, g2⟩ := split_step h (ha a List.mem_cons_self) hq
    rw [e1] at g1
    obtain ⟨home2, base2, g3, g4⟩ := split_run g1 (fun b hb => ha b (List.mem_cons_of_mem _ hb)) h2
    refine ⟨home2, base2, g3, fun t => ?_⟩
    have : share owner t (a :: as) = share owner t [a] ++ share owner t as := by
      rw [share, share, share, ← List.filter_append]
      rfl
    rw [this, mute_append, g2 t]
    simp only [ok_bind, g4 t, shareOuts, e2]

/-- the threads begin with what the program has set up -/
theorem inv_fork {w : LogWorld k} (h : Split owner home w.world base) (progs : Nat → List (LAct k)) :
    Inv sp owner base progs (fork w progs) home :=
  ⟨h.homes, fun t => by
    obtain ⟨φ, h1, h2⟩ := h.alone t
    exact ⟨[], base t, φ, rfl, rfl, h1, h2⟩⟩

end Threads
end Mpc
