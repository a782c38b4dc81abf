import Verif.Proofs.Uncopied
import Verif.Props.NlNested

/-
C74, C137 for controllers which are never copied, in programs which copy others.
-/
namespace Mpc.Props
open Mpc.Spec Mpc.NlSpec Exec World
set_option linter.unusedSectionVars false

section
variable {k : Kind}

/-- C74: a controller which is never copied, linear or nonlinear, returns what it would return if the other controllers and their copies
did not exist, and is left in the same state. -/
theorem c74_uncopied {ops : List (WOp k)} {w : World k} {outs : List (Option k.Out)}
    (hr : (World.empty k).run ops = .ok (w, outs)) {i : Nat} (hn : Uncopied i ops) :
    aloneRun none (about i ops) = .ok (w.view i, returned i ops outs) :=
  (run_lone (lone_empty i) hn hr).2

/-- C74: a step about another controller leaves a controller which is never copied as it is. -/
theorem c74_frame_uncopied {ops : List (WOp k)} {w : World k} {outs : List (Option k.Out)}
    (hr : (World.empty k).run ops = .ok (w, outs)) {i : Nat} {op : WOp k} (hn : Uncopied i (ops ++ [op])) {r : World k × Option k.Out}
    (hs : w.step op = .ok r) (hi : i ≠ subject op) : r.1.view i = w.view i :=
  (step_lone (run_lone (lone_empty i) (fun o ho => hn o (List.mem_append_left _ ho)) hr).1
    (by have := hn op (by simp); cases op <;> exact this) hs).2.2 (Ne.symm hi)

end

variable {d : Dims} {K : Type} [Field K] [LinearOrder K] [IsStrictOrderedRing K]

theorem alone_history {junk : Nat → K} {dyn : Bool} {calls : List (NlCall d K)} {i : Nat} {s} {rets}
    (h : aloneRun (k := nonlinearKind d K) none (.create i (junk, dyn) :: calls.map fun op => .call i op) = .ok (s, rets))
    (hd : HorizonsOk d) (hm : d.ph * d.nx + d.nu * d.ch + 1 ≤ 2 ^ 64) (hs : ∀ op ∈ calls, NlSpec.CallFits d op) :
    ∃ m outs', NlRan d dyn calls outs' m ∧ rets = none :: outs'.map some ∧ s = some ((), m) := by
  obtain ⟨r, hb, t, ht, he⟩ := aloneRun_create.mp h
  obtain ⟨m0, h0, rfl⟩ := nonlinearKind_build.mp hb
  obtain ⟨m', outs', e1, e2, e3⟩ := alone_nonlinear (m := m0) (pre := []) (o0 := []) (junk := junk) (dyn := dyn) (by
    have h0 : NlMpc.init d junk dyn = .ok m0 := h0
    simp only [NlMpc.run, List.foldl_nil, h0, ok_bind]
    rfl) ht
  have h1 := congrArg Prod.fst he
  have h2 := congrArg Prod.snd he
  exact ⟨m', outs', ⟨hd, hm, hs, junk, e1⟩, h2.trans (congrArg (none :: ·) e3), h1.trans e2⟩

/-- C74: a nonlinear controller which is constructed once, still alive and never copied has the state and the answers of a history of its
own calls, so that everything proved about such histories holds of it, whatever is done with other controllers and their copies. -/
theorem c74_nonlinear_uncopied {ops : List (WOp (nonlinearKind d K))} {w : World (nonlinearKind d K)}
    {outs : List (Option (NlOut K))} (hr : (World.empty (nonlinearKind d K)).run ops = .ok (w, outs)) {i : Nat} (hn : Uncopied i ops)
    {junk : Nat → K} {dyn : Bool} {calls : List (NlCall d K)}
    (hi : about i ops = .create i (junk, dyn) :: calls.map fun op => .call i op)
    (hd : HorizonsOk d) (hm : d.ph * d.nx + d.nu * d.ch + 1 ≤ 2 ^ 64) (hs : ∀ op ∈ calls, NlSpec.CallFits d op) :
    ∃ m outs', NlRan d dyn calls outs' m ∧ returned i ops outs = none :: outs'.map some ∧ w.view i = some ((), m) := by
  have h := c74_uncopied hr hn
  rw [hi] at h
  exact alone_history h hd hm hs

/-- C137: everything proved about a nonlinear controller holds of one which is used in user functions and never copied, whatever the
functions do with it, with others and with copies of these, and whatever was done before. -/
theorem c137_nonlinear_uncopied {d' : Dims} {τ : Type} {f : Nested d K (nonlinearKind d' K) τ} {w0 : World (nonlinearKind d' K)} {t0 : τ}
    {i : Inner (nonlinearKind d' K) τ} {before : List (WOp (nonlinearKind d' K))} {outs0 : List (Option (nonlinearKind d' K).Out)}
    {dyn : Bool} {ops outs es m}
    (h0 : (World.empty (nonlinearKind d' K)).run before = .ok (w0, outs0))
    (h : UnRan f.insider (.ok ⟨w0, t0, []⟩) dyn ops outs es m (.ok i)) {j : Nat} (hn : Uncopied j (before ++ i.past.map Prod.fst))
    {junk : Nat → K} {dyn' : Bool} {calls : List (NlCall d' K)}
    (hi : about j (before ++ i.past.map Prod.fst) = .create j (junk, dyn') :: calls.map fun op => .call j op)
    (hd : HorizonsOk d') (hm : d'.ph * d'.nx + d'.nu * d'.ch + 1 ≤ 2 ^ 64) (hs : ∀ op ∈ calls, CallFits d' op) :
    ∃ m outs', NlRan d' dyn' calls outs' m ∧
      returned j (before ++ i.past.map Prod.fst) (outs0 ++ i.past.map Prod.snd) = none :: outs'.map some ∧
      i.world.view j = some ((), m) :=
  c74_nonlinear_uncopied (World.run_append h0 (c137_program h)) hn hi hd hm hs

/-- Two controllers, a copy of one of them, and a call on the copy: the other is as if it were alone. -/
example : ∃ (w : World (nonlinearKind dN ℚ)) (outs : _),
    (World.empty (nonlinearKind dN ℚ)).run [.create 0 (fun _ => 0, false), .copy 0 1, .create 2 (fun _ => 0, false),
      .call 1 (.setDiscretizationSamplingTime 1)] = .ok (w, outs) ∧
    ∃ m outs', NlRan dN false [] outs' m ∧ w.view 2 = some ((), m) := by
  obtain ⟨m0, h0, -⟩ := dN_new
  have hb : (nonlinearKind dN ℚ).build (fun _ => 0, false) = .ok ((), m0) := nonlinearKind_build.2 ⟨m0, h0, rfl⟩
  obtain ⟨q, hq⟩ : ∃ q, (nonlinearKind dN ℚ).step () m0 (.setDiscretizationSamplingTime 1) = .ok q := ⟨_, rfl⟩
  have e1 := run_snoc (ops := []) (outs := []) rfl (World.step_create (w := World.empty (nonlinearKind dN ℚ)) (i := 0) rfl hb)
  have e2 := run_snoc e1 (World.step_copy (i := 0) (j := 1) (o := ⟨(), 0⟩) rfl rfl rfl)
  have e3 := run_snoc e2 (World.step_create (i := 2) rfl hb)
  have e4 := run_snoc e3 (World.step_call (i := 1) (o := ⟨(), 0⟩) (c := ⟨m0, 0⟩) rfl rfl rfl hq)
  refine ⟨_, _, e4, ?_⟩
  obtain ⟨m, outs', h1, -, h2⟩ := c74_nonlinear_uncopied (i := 2) (junk := fun _ => 0) (dyn := false) (calls := []) e4 (by
    intro o ho
    simp only [List.nil_append, List.mem_append, List.mem_singleton] at ho
    rcases ho with ((rfl | rfl) | rfl) | rfl <;> simp) rfl ⟨by decide, by decide, by decide⟩ (by decide) (fun _ h => by cases h)
  exact ⟨m, outs', h1, h2⟩

end Mpc.Props
