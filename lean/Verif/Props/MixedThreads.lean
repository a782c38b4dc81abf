import Verif.Props.Fork
import Verif.Props.LogSettings
import Verif.Props.MixedCopies

/-
C138, C139 for controllers used from several threads.
-/
namespace Mpc.Props
open Mpc.Spec Mpc.NlSpec Exec World Threads
set_option linter.unusedSectionVars false

variable {K : Type} [Field K] [LinearOrder K] [IsStrictOrderedRing K] {sp : Speaker (mixedKind K)} {owner : Nat → Nat} {l : Logger}
  {main : List (LAct (mixedKind K))} {progs : Nat → List (LAct (mixedKind K))} {w : LogWorld (mixedKind K)}
  {s : Threads (mixedKind K)} {sched : List Nat}

/-- C138: a linear controller which the program sets up and a thread then uses, while other threads use linear and nonlinear controllers of
their own, has the state of a history of the calls made to it, whatever the schedule. -/
theorem c138_threads {outs trace} (hs : Settled owner main) (hm : LAct.setStream none ∉ main) (ho : Owned owner progs) (hk : KeepsStream progs)
    (h0 : LogWorld.run sp ⟨World.empty _, l⟩ main = .ok (w, outs)) (hr : (fork w progs).run sp sched = .ok (s, trace)) (t : Nat) :
    ∃ done, progs t = done ++ (s.threads t).todo ∧
      ∀ (j : Nat) (d : Dims) (uninit : Nat → Nat → K) (junk : Nat → Nat) (calls : List (LOp K)), owner j = t →
        about j (programOf (share owner t main ++ done)) =
          .create j ⟨none, (d, uninit, junk)⟩ :: calls.map (fun op => .call j ⟨none, op⟩) →
        d.Valid → (∀ op ∈ calls, Sized d op ∧ SliceNonneg op) →
        ∃ m outs', Configured d calls outs' m ∧ s.world.view j = some (⟨none, (m.d, m.b)⟩, ⟨none, m.o⟩) := by
  obtain ⟨done, w', h1, h2, h3⟩ := c136_as_alone hs hm ho hk h0 hr t
  refine ⟨done, h1, fun j d uninit junk calls hj ha hd hc => ?_⟩
  obtain ⟨m, outs', g1, -, g2⟩ := c138_linear (c91_transparent h2) ha hd hc
  exact ⟨m, outs', g1, (h3 j hj).trans g2⟩

/-- C139: likewise for a nonlinear controller and its copies, which belong to one thread. -/
theorem c139_threads {outs trace} (hs : Settled owner main) (hm : LAct.setStream none ∉ main) (ho : Owned owner progs) (hk : KeepsStream progs)
    (h0 : LogWorld.run sp ⟨World.empty _, l⟩ main = .ok (w, outs)) (hr : (fork w progs).run sp sched = .ok (s, trace)) (t : Nat) :
    ∃ done, progs t = done ++ (s.threads t).todo ∧
      ∀ (p n : Nat) (d : Dims) (junk : Nat → K) (dyn : Bool) (calls : List (Nat × NlCall d K)),
        Names.start.steps p (programOf (share owner t main ++ done)) =
          .create n ⟨some d, (junk, dyn)⟩ :: calls.map (fun c => .call c.1 ⟨some d, c.2⟩) →
        HorizonsOk d → d.ph * d.nx + d.nu * d.ch + 1 ≤ 2 ^ 64 → (∀ c ∈ calls, CallFits d c.2) →
        ∃ m outs', NlRan d dyn (calls.map Prod.snd) outs' m ∧
          ∀ j, owner j = t → (Names.start.afterAll (programOf (share owner t main ++ done))).of j = some p →
            s.world.view j = some (⟨some d, ()⟩, ⟨some d, m⟩) := by
  obtain ⟨done, w', h1, h2, h3⟩ := c136_as_alone hs hm ho hk h0 hr t
  refine ⟨done, h1, fun p n d junk dyn calls hp hd hm hc => ?_⟩
  obtain ⟨m, outs', g1, -, g2⟩ := c139_mixed (c91_transparent h2) hp hd hm hc
  exact ⟨m, outs', g1, fun j hj ho => (h3 j hj).trans (g2 j ho)⟩

theorem programOf_acts {k : Kind} : ∀ ops : List (WOp k), programOf (ops.map fun op => LAct.act op {}) = ops
  | [] => rfl
  | _ :: ops => congrArg (_ :: ·) (programOf_acts ops)

/-- Non-vacuity of both: thread 0 constructs and uses a linear controller 0 and nonlinear ones 1 and 2 with a copy 3 of the latter, thread 1
constructs a nonlinear controller 4. However they begin, both can finish; then the linear controller and the copy are in the states which
the calls made to them lead to. -/
example (sp : Speaker (mixedKind ℚ)) (sched : List Nat) : ∃ (progs : Nat → List (LAct (mixedKind ℚ))) (more : List Nat)
    (s : Threads (mixedKind ℚ)) (trace : _) (a : (linearKind ℚ).Args) (calls : List (LOp ℚ)),
    progs 0 ≠ [] ∧ progs 1 ≠ [] ∧ (∃ x0 u0 oc, LOp.optimize x0 u0 oc ∈ calls) ∧
    (fork ⟨World.empty _, Logger.new⟩ progs).run sp (sched ++ more) = .ok (s, trace) ∧ (∀ t, Finished s t) ∧
    (∃ m outs', Configured a.1 calls outs' m ∧ s.world.view 0 = some (⟨none, (m.d, m.b)⟩, ⟨none, m.o⟩)) ∧
    ∃ m outs', NlRan dN false [] outs' m ∧ s.world.view 3 = some (⟨some dN, ()⟩, ⟨some dN, m⟩) := by
  obtain ⟨a, calls, w, outs, hopt, hv, hs, e⟩ := mixed_copy_ran
  obtain ⟨m0, h0, -⟩ := dN_new
  have hb : ∃ r, (mixedKind ℚ).build ⟨some dN, (fun _ => (0 : ℚ), false)⟩ = .ok r :=
    ⟨_, (family_build (k := classes ℚ) (some dN) (fun _ => (0 : ℚ), false)).trans
      (congrArg (Except.map (asClass (k := classes ℚ) (some dN))) (nonlinearKind_build.2 ⟨m0, h0, rfl⟩))⟩
  obtain ⟨r, hb⟩ := hb
  let ops : List (WOp (mixedKind ℚ)) := mixed (k := classes ℚ) none (some dN) a (fun _ => 0, false) calls ++ [.copy 2 3]
  let ops1 : List (WOp (mixedKind ℚ)) := [.create 4 ⟨some dN, (fun _ => 0, false)⟩]
  let owner : Nat → Nat := fun j => if j ≤ 3 then 0 else 1
  let progs : Nat → List (LAct (mixedKind ℚ)) := fun t => match t with
    | 0 => ops.map fun op => .act op {}
    | 1 => ops1.map fun op => .act op {}
    | _ => []
  have hacts : ∀ t, ∀ b ∈ progs t, ∃ op, b = .act op {} ∧ ∀ i ∈ involved op, owner i = t := by
    intro t b hb
    match t, hb with
    | 0, hb =>
      obtain ⟨op, ho, rfl⟩ := List.mem_map.1 hb
      refine ⟨op, rfl, ?_⟩
      rcases List.mem_append.1 ho with ho | ho
      · rcases List.mem_append.1 ho with ho | ho
        · simp only [List.mem_cons, List.not_mem_nil, or_false] at ho
          rcases ho with rfl | rfl | rfl <;> (intro i hi; simp only [involved, List.mem_singleton] at hi; subst hi; rfl)
        · obtain ⟨y, -, rfl⟩ := List.mem_map.1 ho
          intro i hi; simp only [involved, List.mem_singleton] at hi; subst hi; rfl
      · rw [List.mem_singleton.1 ho]
        intro i hi
        simp only [involved, List.mem_cons, List.not_mem_nil, or_false] at hi
        rcases hi with rfl | rfl <;> rfl
    | 1, hb =>
      obtain ⟨op, ho, rfl⟩ := List.mem_map.1 hb
      refine ⟨op, rfl, ?_⟩
      rw [List.mem_singleton.1 ho]
      intro i hi; simp only [involved, List.mem_singleton] at hi; subst hi; rfl
    | t + 2, hb => exact (nomatch hb)
  have ho : Owned owner progs := fun t b hb i hi => by
    obtain ⟨op, rfl, h⟩ := hacts t b hb
    exact h i hi
  have hk : KeepsStream progs := fun t h => by
    obtain ⟨op, e, -⟩ := hacts t _ h
    cases e
  have hset : Settled owner ([] : List (LAct (mixedKind ℚ))) := fun b hb => (nomatch hb)
  have hm0 : LAct.setStream none ∉ ([] : List (LAct (mixedKind ℚ))) := fun hb => (nomatch hb)
  have hall : ∀ t, ∃ q, (LogWorld.empty (mixedKind ℚ)).run sp (share owner t [] ++ progs t) = .ok q := by
    intro t
    match t with
    | 0 =>
      obtain ⟨l', o', h, -⟩ := LogWorld.run_total (sp := sp) (w := LogWorld.empty (mixedKind ℚ)) {} e (by intro h; cases h)
      exact ⟨_, h⟩
    | 1 =>
      have h1 := World.run_snoc (ops := []) (outs := []) (w := World.empty (mixedKind ℚ)) rfl
        (World.step_create (w := World.empty (mixedKind ℚ)) (i := 4) rfl hb)
      obtain ⟨l', o', h, -⟩ := LogWorld.run_total (sp := sp) (w := LogWorld.empty (mixedKind ℚ)) {} h1 (by intro h; cases h)
      exact ⟨_, h⟩
    | t + 2 => exact ⟨_, rfl⟩
  have hmain : LogWorld.run sp ⟨World.empty (mixedKind ℚ), Logger.new⟩ [] = .ok (⟨World.empty _, Logger.new⟩, []) := rfl
  obtain ⟨-, -, more, ⟨s, trace⟩, hrun, hfin⟩ := c136_runs hset hm0 ho hk (by intro h; cases h) hmain hall (n := 2)
    (fun t ht => by match t, ht with | t + 2, _ => rfl) sched
  have hprog : ∀ done, progs 0 = done ++ (s.threads 0).todo → programOf (share owner 0 [] ++ done) = ops := fun done h => by
    rw [(hfin 0).1, List.append_nil] at h
    exact (congrArg programOf h.symm).trans (programOf_acts ops)
  obtain ⟨done, g1, g2⟩ := c138_threads hset hm0 ho hk hmain hrun 0
  obtain ⟨done', g3, g4⟩ := c139_threads hset hm0 ho hk hmain hrun 0
  have hn : Names.start.afterAll ops = _ :=
    (afterAll_append _ _ _).trans (congrArg (fun n => Names.afterAll n [WOp.copy (k := mixedKind ℚ) 2 3]) mixed_names)
  obtain ⟨m, outs', k1, k2⟩ := g4 2 2 dN (fun _ => 0) false [] (by
      rw [hprog done' g3]
      exact (steps_append _ _ _ _).trans (((congrArg (· ++ _) mixed_steps)).trans (by simp [Names.steps, Names.concerns])))
    ⟨by decide, by decide, by decide⟩ (by decide) (fun c hc => by cases hc)
  refine ⟨progs, more, s, trace, a, calls, ?_, ?_, hopt, hrun, hfin, ?_, m, outs', k1, k2 3 rfl ?_⟩
  · intro h; cases h
  · intro h; cases h
  · refine g2 0 a.1 a.2.1 a.2.2 calls rfl ?_ hv hs
    rw [hprog done g1]
    exact (about_append _ _).trans ((congrArg (· ++ _) mixed_zero).trans (List.append_nil _))
  · rw [hprog done' g3, hn]; rfl

end Mpc.Props
