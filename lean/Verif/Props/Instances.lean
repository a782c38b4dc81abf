import Verif.Proofs.Instances
import Verif.Props.NlAsked
import Verif.Props.NlStart
import Verif.Props.LinearRun

/-
C74, C75: several controllers in one program; copies; destruction.
-/
namespace Mpc.Props
open Mpc.Spec Exec World
set_option linter.unusedSectionVars false

variable {k : Kind} {K : Type} [Field K] [DecidableEq K] [LinearOrder K] [IsStrictOrderedRing K]

/-! ### C74 -/

/-- what the getters of a nonlinear controller return -/
def getters {d : Dims} {K : Type} [Field K] [LinearOrder K] (v : (nonlinearKind d K).Body × (nonlinearKind d K).Opt) :
    LResult K × Mat K × Mat K × Mat K :=
  let m : NlMpc d K := v.2
  (m.o.result, m.o.seqState, m.o.seqInput, m.o.seqOutput)

/-- C74 as stated for the nonlinear controller: in every program, copies included, a call on one controller leaves what the
getters of the others return. -/
def C74FrameClaim (K : Type) [Field K] [LinearOrder K] : Prop :=
  ∀ (d : Dims) (ops : List (WOp (nonlinearKind d K))) w outs, (World.empty _).run ops = .ok (w, outs) →
    ∀ i j op r, i ≠ j → w.step (.call j op) = .ok r → (r.1.view i).map getters = (w.view i).map getters

/-- C74 as stated for the nonlinear controller: in every program, destroying one controller leaves the others usable. -/
def C74DestroyClaim (K : Type) [Field K] [LinearOrder K] : Prop :=
  ∀ (d : Dims) (ops : List (WOp (nonlinearKind d K))) w outs, (World.empty _).run ops = .ok (w, outs) →
    ∀ i j op q, i ≠ j → w.step (.call i op) = .ok q → ∀ r, w.step (.destroy j) = .ok r → ∃ q', r.1.step (.call i op) = .ok q'

/-- C74, partial: in a program without copies every controller, linear or nonlinear, returns what it would return if the
other controllers did not exist, and is left in the same state. (Missing: programs which copy controllers, where the claim
fails.) -/
theorem c74_alone_partial {ops : List (WOp k)} {w : World k} {outs : List (Option k.Out)} (hn : NoCopies ops)
    (hr : (World.empty k).run ops = .ok (w, outs)) (i : Nat) :
    aloneRun none (about i ops) = .ok (w.view i, returned i ops outs) :=
  (run_apart apart_empty hn hr).2 i

/-- C74, partial: conversely, if every controller of a program without copies would run alone, the program runs. -/
theorem c74_runs_partial {ops : List (WOp k)} (hn : NoCopies ops) (ha : ∀ i, ∃ q, aloneRun none (about i ops) = .ok q) :
    ∃ q, (World.empty k).run ops = .ok q :=
  run_total apart_empty hn ha

/-- C74, partial: in a program without copies a step about one controller leaves all others as they are. -/
theorem c74_frame_partial {ops : List (WOp k)} {w : World k} {outs : List (Option k.Out)} (hn : NoCopies ops)
    (hr : (World.empty k).run ops = .ok (w, outs)) {op : WOp k} {r : World k × Option k.Out} (hop : NoCopies [op])
    (hs : w.step op = .ok r) {i : Nat} (hi : i ≠ subject op) : r.1.view i = w.view i :=
  ((step_apart (run_apart apart_empty hn hr).1 (noCopies_cons hop).1).2 r hs).2.2 i hi

theorem linearKind_step {b : Dims × Builder K} {o : LOpt K} {op : LOp K} {q : (Dims × Builder K) × LOpt K × LOut K} :
    (linearKind K).step b o op = .ok q ↔
      ∃ p, LMpc.step ⟨b.1, b.2, o⟩ op = .ok p ∧ q = ((p.1.d, p.1.b), p.1.o, p.2) := by
  show (LMpc.step ⟨b.1, b.2, o⟩ op >>= fun r => Except.ok ((r.1.d, r.1.b), r.1.o, r.2)) = Except.ok q ↔ _
  rw [bind_eq_ok]
  constructor
  · rintro ⟨p, hp, hq⟩
    exact ⟨p, hp, by cases hq; rfl⟩
  · rintro ⟨p, hp, rfl⟩
    exact ⟨p, hp, rfl⟩

theorem linearKind_build {a : Dims × (Nat → Nat → K) × (Nat → Nat)} {q : (Dims × Builder K) × LOpt K} :
    (linearKind K).build a = .ok q ↔ ∃ m, LMpc.new a.1 a.2.1 a.2.2 = .ok m ∧ q = ((m.d, m.b), m.o) := by
  show (LMpc.new a.1 a.2.1 a.2.2 >>= fun m => Except.ok ((m.d, m.b), m.o)) = Except.ok q ↔ _
  rw [bind_eq_ok]
  constructor
  · rintro ⟨p, hp, hq⟩
    exact ⟨p, hp, by cases hq; rfl⟩
  · rintro ⟨p, hp, rfl⟩
    exact ⟨p, hp, rfl⟩

theorem aloneRun_call {s : k.Body × k.Opt} {i : Nat} {op : k.Op} {ops : List (WOp k)} {q} :
    aloneRun (some s) (.call i op :: ops) = .ok q ↔
      ∃ r, k.step s.1 s.2 op = .ok r ∧ ∃ t, aloneRun (some (r.1, r.2.1)) ops = .ok t ∧ q = (t.1, some r.2.2 :: t.2) := by
  obtain ⟨b, o⟩ := s
  simp only [aloneRun, aloneStep, bind_eq_ok]
  constructor
  · rintro ⟨r, ⟨p, hp, hr⟩, t, ht, hq⟩
    cases hr
    cases hq
    exact ⟨p, hp, t, ht, rfl⟩
  · rintro ⟨p, hp, t, ht, rfl⟩
    exact ⟨_, ⟨p, hp, rfl⟩, t, ht, rfl⟩

theorem aloneRun_create {i : Nat} {a : k.Args} {ops : List (WOp k)} {q} :
    aloneRun none (.create i a :: ops) = .ok q ↔
      ∃ r, k.build a = .ok r ∧ ∃ t, aloneRun (some r) ops = .ok t ∧ q = (t.1, none :: t.2) := by
  simp only [aloneRun, aloneStep, bind_eq_ok]
  constructor
  · rintro ⟨r, ⟨p, hp, hr⟩, t, ht, hq⟩
    cases hr
    cases hq
    exact ⟨p, hp, t, ht, rfl⟩
  · rintro ⟨p, hp, t, ht, rfl⟩
    exact ⟨_, ⟨p, hp, rfl⟩, t, ht, rfl⟩

theorem alone_linear {i : Nat} : ∀ {calls : List (LOp K)} {m : LMpc K} {q},
    aloneRun (k := linearKind K) (some ((m.d, m.b), m.o)) (calls.map fun op => .call i op) = .ok q →
    ∃ m' outs', m.exec calls = .ok (m', outs') ∧ q.1 = some ((m'.d, m'.b), m'.o) ∧ q.2 = outs'.map some
  | [], m, q, h => by
    cases h
    exact ⟨m, [], rfl, rfl, rfl⟩
  | op :: calls, m, q, h => by
    obtain ⟨r, hr, t, ht, he⟩ := aloneRun_call.mp h
    obtain ⟨p, hp, rfl⟩ := linearKind_step.mp hr
    obtain ⟨m', outs', e1, e2, e3⟩ := alone_linear (m := p.1) ht
    subst he
    refine ⟨m', p.2 :: outs', ?_, e2, ?_⟩
    · have hp : m.step op = .ok p := hp
      simp only [LMpc.exec, hp, ok_bind, e1]
      rfl
    · show some p.2 :: t.2 = _
      rw [e3]; rfl

theorem alone_linear_runs {i : Nat} : ∀ {calls : List (LOp K)} {m m' : LMpc K} {outs}, m.exec calls = .ok (m', outs) →
    ∃ q, aloneRun (k := linearKind K) (some ((m.d, m.b), m.o)) (calls.map fun op => .call i op) = .ok q
  | [], _, _, _, _ => ⟨_, rfl⟩
  | op :: calls, m, m', outs, h => by
    simp only [LMpc.exec, bind_eq_ok] at h
    obtain ⟨p, hp, s, hs, -⟩ := h
    obtain ⟨q, hq⟩ := alone_linear_runs (i := i) (m := p.1) hs
    exact ⟨_, aloneRun_call.2 ⟨_, linearKind_step.2 ⟨p, hp, rfl⟩, q, hq, rfl⟩⟩

theorem linear_noCopies : ∀ {ops : List (WOp (linearKind K))} {w w' : World (linearKind K)} {outs},
    w.run ops = .ok (w', outs) → NoCopies ops
  | [], _, _, _, _ => fun _ h => absurd h List.not_mem_nil
  | op :: ops, w, w', outs, hr => by
    simp only [run, bind_eq_ok] at hr
    obtain ⟨r, hr, s, hs, -⟩ := hr
    have ih := linear_noCopies hs
    intro o ho
    rcases List.mem_cons.1 ho with rfl | ho
    · cases o with
      | copy i j =>
        simp only [step, bind_eq_ok] at hr
        obtain ⟨_, _, _, hu, _⟩ := hr
        exact absurd (require_eq_ok.1 hu) Bool.false_ne_true
      | assign i j =>
        simp only [step, bind_eq_ok] at hr
        obtain ⟨_, _, _, hu, _⟩ := hr
        exact absurd (require_eq_ok.1 hu) Bool.false_ne_true
      | _ => trivial
    · exact ih o ho

/-- C74 for the linear controller, every program: every controller returns what it would return if the other controllers
did not exist, and is left in the same state. -/
theorem c74_linear {ops : List (WOp (linearKind K))} {w : World (linearKind K)} {outs : List (Option (LOut K))}
    (hr : (World.empty (linearKind K)).run ops = .ok (w, outs)) (i : Nat) :
    aloneRun none (about i ops) = .ok (w.view i, returned i ops outs) :=
  c74_alone_partial (linear_noCopies hr) hr i

/-- C74 for the linear controller: a controller constructed once and still alive has the state and the answers of a history
of its own calls, so that everything proved about such histories (`Configured`, `Asked`) holds in every program. -/
theorem c74_linear_history {ops : List (WOp (linearKind K))} {w : World (linearKind K)} {outs : List (Option (LOut K))}
    (hr : (World.empty (linearKind K)).run ops = .ok (w, outs)) {i : Nat} {d : Dims}
    {uninit : Nat → Nat → K} {junk : Nat → Nat} {calls : List (LOp K)}
    (hi : about i ops = .create i (d, uninit, junk) :: calls.map fun op => .call i op)
    (hd : d.Valid) (hs : ∀ op ∈ calls, Sized d op ∧ SliceNonneg op) :
    ∃ m outs', Configured d calls outs' m ∧ returned i ops outs = none :: outs'.map some ∧
      w.view i = some ((m.d, m.b), m.o) := by
  have h := c74_linear hr i
  rw [hi] at h
  obtain ⟨r, hb, t, ht, he⟩ := aloneRun_create.mp h
  obtain ⟨m0, h0, rfl⟩ := linearKind_build.mp hb
  obtain ⟨m', outs', e1, e2, e3⟩ := alone_linear (m := m0) ht
  have h1 := congrArg Prod.fst he
  have h2 := congrArg Prod.snd he
  exact ⟨m', outs', ⟨hd, hs, uninit, junk, m0, h0, e1⟩, h2.trans (congrArg (none :: ·) e3), h1.trans e2⟩

/-! ### the nonlinear controller -/

section
variable {d : Dims}

theorem nonlinearKind_step {m : NlMpc d K} {op : NlCall d K} {q : Unit × NlMpc d K × NlOut K} :
    (nonlinearKind d K).step () m op = .ok q ↔ ∃ p, m.step op = .ok p ∧ q = ((), p.1, p.2) := by
  show (m.step op >>= fun r => Except.ok ((), r.1, r.2)) = Except.ok q ↔ _
  rw [bind_eq_ok]
  constructor
  · rintro ⟨p, hp, hq⟩
    exact ⟨p, hp, by cases hq; rfl⟩
  · rintro ⟨p, hp, rfl⟩
    exact ⟨p, hp, rfl⟩

theorem nonlinearKind_build {a : (Nat → K) × Bool} {q : Unit × NlMpc d K} :
    (nonlinearKind d K).build a = .ok q ↔ ∃ m, NlMpc.init d a.1 a.2 = .ok m ∧ q = ((), m) := by
  show (NlMpc.init d a.1 a.2 >>= fun m => Except.ok ((), m)) = Except.ok q ↔ _
  rw [bind_eq_ok]
  constructor
  · rintro ⟨p, hp, hq⟩
    exact ⟨p, hp, by cases hq; rfl⟩
  · rintro ⟨p, hp, rfl⟩
    exact ⟨p, hp, rfl⟩

theorem alone_nonlinear {i : Nat} {junk : Nat → K} {dyn : Bool} : ∀ {calls pre : List (NlCall d K)} {m : NlMpc d K} {o0 q},
    NlMpc.run d junk dyn pre = .ok (m, o0) →
    aloneRun (k := nonlinearKind d K) (some ((), m)) (calls.map fun op => .call i op) = .ok q →
    ∃ m' outs', NlMpc.run d junk dyn (pre ++ calls) = .ok (m', o0 ++ outs') ∧ q.1 = some ((), m') ∧ q.2 = outs'.map some
  | [], pre, m, o0, q, h0, h => by
    cases h
    exact ⟨m, [], by simpa using h0, rfl, rfl⟩
  | op :: calls, pre, m, o0, q, h0, h => by
    obtain ⟨r, hr, t, ht, he⟩ := aloneRun_call.mp h
    obtain ⟨p, hp, rfl⟩ := nonlinearKind_step.mp hr
    obtain ⟨m', outs', e1, e2, e3⟩ := alone_nonlinear (m := p.1) (pre := pre ++ [op]) (o0 := o0 ++ [p.2]) (by
      rw [NlMpc.run_snoc, h0]
      simp only [ok_bind, hp]
      rfl) ht
    subst he
    refine ⟨m', p.2 :: outs', by simpa using e1, e2, ?_⟩
    show some p.2 :: t.2 = _
    rw [e3]; rfl

/-- C74, partial, for the nonlinear controller: in a program without copies, a controller constructed once and still alive
has the state and the answers of a history of its own calls, so that everything proved about such histories (`NlRan`,
`NlAsked`) holds in the program. (Missing: programs with copies.) -/
theorem c74_nonlinear_partial {ops : List (WOp (nonlinearKind d K))} {w : World (nonlinearKind d K)}
    {outs : List (Option (NlOut K))} (hn : NoCopies ops)
    (hr : (World.empty (nonlinearKind d K)).run ops = .ok (w, outs)) {i : Nat}
    {junk : Nat → K} {dyn : Bool} {calls : List (NlCall d K)}
    (hi : about i ops = .create i (junk, dyn) :: calls.map fun op => .call i op)
    (hd : HorizonsOk d) (hm : d.ph * d.nx + d.nu * d.ch + 1 ≤ 2 ^ 64) (hs : ∀ op ∈ calls, NlSpec.CallFits d op) :
    ∃ m outs', NlRan d dyn calls outs' m ∧ returned i ops outs = none :: outs'.map some ∧ w.view i = some ((), m) := by
  have h := c74_alone_partial hn hr i
  rw [hi] at h
  obtain ⟨r, hb, t, ht, he⟩ := aloneRun_create.mp h
  obtain ⟨m0, h0, rfl⟩ := nonlinearKind_build.mp hb
  obtain ⟨m', outs', e1, e2, e3⟩ := alone_nonlinear (m := m0) (pre := []) (o0 := []) (junk := junk) (dyn := dyn) (by
    have h0 : NlMpc.init d junk dyn = .ok m0 := h0
    simp only [NlMpc.run, List.foldl_nil, h0, ok_bind]
    rfl) ht
  have h1 := congrArg Prod.fst he
  have h2 := congrArg Prod.snd he
  exact ⟨m', outs', ⟨hd, hm, hs, junk, e1⟩, h2.trans (congrArg (none :: ·) e3), h1.trans e2⟩

end

/-! ### witnesses with copies -/

/-- a nonlinear controller 0 and its copy 1 -/
theorem copied {d : Dims} {m : NlMpc d K} {a : (Nat → K) × Bool} (h0 : NlMpc.init d a.1 a.2 = .ok m) :
    ∃ w : World (nonlinearKind d K), (World.empty _).run [.create 0 a, .copy 0 1] = .ok (w, [none, none]) ∧
      w.objs 0 = some ⟨(), 0⟩ ∧ w.objs 1 = some ⟨(), 0⟩ ∧ w.heap 0 = some ⟨m, 0⟩ := by
  have hb := nonlinearKind_build.2 ⟨m, h0, rfl⟩
  have e1 := step_create (w := World.empty (nonlinearKind d K)) (i := 0) rfl hb
  have e2 := run_snoc (ops := []) (outs := []) (w := World.empty (nonlinearKind d K)) rfl e1
  exact ⟨_, run_snoc e2 (step_copy (i := 0) (j := 1) (o := ⟨(), 0⟩) rfl rfl rfl), rfl, rfl, rfl⟩

/-- a call on the copy -/
theorem call_copy {d : Dims} {ops : List (WOp (nonlinearKind d K))} {w : World (nonlinearKind d K)}
    {outs : List (Option (NlOut K))} {m m' : NlMpc d K} {op : NlCall d K} {o : NlOut K}
    (hr : (World.empty _).run ops = .ok (w, outs)) (h0 : w.objs 0 = some ⟨(), 0⟩) (h1 : w.objs 1 = some ⟨(), 0⟩)
    (hh : w.heap 0 = some ⟨m, 0⟩) (hs : m.step op = .ok (m', o)) :
    ∃ w' : World (nonlinearKind d K), w.step (.call 1 op) = .ok (w', some o) ∧
      (World.empty _).run (ops ++ [.call 1 op]) = .ok (w', outs ++ [some o]) ∧
      w'.objs 0 = some ⟨(), 0⟩ ∧ w'.objs 1 = some ⟨(), 0⟩ ∧ w'.heap 0 = some ⟨m', 0⟩ := by
  have hk := nonlinearKind_step.2 ⟨_, hs, rfl⟩
  have e := step_call (k := nonlinearKind d K) h1 hh rfl hk
  exact ⟨_, e, run_snoc hr e, (set_ne (f := w.objs) (i := 1) (j := 0) (v := some ⟨(), 0⟩) (by decide)).trans h0, rfl, rfl⟩

theorem dN_new : ∃ m : NlMpc dN ℚ, NlMpc.init dN (fun _ => 0) false = .ok m ∧ NlRan dN false [] [] m := by
  obtain ⟨⟨m, outs⟩, h⟩ := NlMpc.run_total (d := dN) (K := ℚ) (by decide) (by decide) (by decide) (by decide) (fun _ => 0) false []
    (by simp) (fun p op q e => by simp at e)
  have hi : NlMpc.init dN (fun _ => (0 : ℚ)) false = .ok m := by
    simp only [NlMpc.run, List.foldl_nil, bind_eq_ok] at h
    obtain ⟨m', hm, he⟩ := h
    cases he
    exact hm
  have ho : outs = [] := by
    simp only [NlMpc.run, List.foldl_nil, bind_eq_ok] at h
    obtain ⟨m', hm, he⟩ := h
    cases he
    rfl
  subst ho
  exact ⟨m, hi, dN_ok, by decide, by simp, _, h⟩

theorem NlAsked.junkless {d : Dims} {dyn : Bool} {ops : List (NlCall d K)} {outs x0 u0 cs oc m m' r call}
    (h : NlAsked d dyn ops outs x0 u0 cs oc m m' r call) : ∃ junk, m.step (.optimize x0 u0 cs oc junk) = .ok (m', .result r call) ∧
      NlRan d dyn (ops ++ [.optimize x0 u0 cs oc junk]) (outs ++ [.result r call]) m' := by
  obtain ⟨junk, hf, hs⟩ := h.ask
  exact ⟨junk, hs, h.toNlRan.snoc hf hs⟩

/-- C74 is violated: `optimize` on a copy of a nonlinear controller replaces what `getLastResult` of the original returns. -/
theorem c74_frame_violated : ¬ C74FrameClaim ℚ := by
  intro hc
  obtain ⟨m, hi, hm⟩ := dN_new
  obtain ⟨m1, r1, call1, a1⟩ := hm.asks (x0 := nvec 2 fun _ => 0) (u0 := nvec 1 fun _ => 0) (oc := .threw) rfl rfl
    (by intro z v c t e; cases e) (by decide)
  obtain ⟨j1, s1, hm1⟩ := a1.junkless
  obtain ⟨m2, r2, call2, a2⟩ := hm1.asks (x0 := nvec 2 fun _ => 0) (u0 := nvec 1 fun _ => 0)
    (oc := .answered (zN 0) (.fin 7) 1 false) rfl rfl (by intro z v c t e; cases e; rfl) (by decide)
  obtain ⟨j2, s2, -⟩ := a2.junkless
  obtain ⟨w, e, h0, h1, hh⟩ := copied (a := (fun _ => 0, false)) hi
  obtain ⟨w1, -, e1, h0, h1, hh⟩ := call_copy e h0 h1 hh s1
  obtain ⟨w2, e2, -, g0, -, gh⟩ := call_copy e1 h0 h1 hh s2
  have := hc dN _ w1 _ e1 0 1 _ _ (by decide) e2
  simp only [view, h0, hh, g0, gh, Option.map_some, getters, Option.some.injEq, Prod.mk.injEq] at this
  have c1 : r1.cost = .posInf := (c48_failure_keeps_command a1 (by intro z v c e; cases e)).2.2.2.2.2.1
  have c2 : r2.cost = .fin 7 := by
    have : NlMpc.Answered _ _ _ _ _ _ _ := a2.known.2.2.2
    exact this.cost
  rw [← a2.known.1, ← a1.known.1] at this
  rw [this.1, c1] at c2
  cases c2

/-- C74 is violated: after a nonlinear controller is destroyed, calls on its copy use released memory. -/
theorem c74_destroy_violated : ¬ C74DestroyClaim ℚ := by
  intro hc
  obtain ⟨m, hi, hm⟩ := dN_new
  obtain ⟨m1, r1, call1, a1⟩ := hm.asks (x0 := nvec 2 fun _ => 0) (u0 := nvec 1 fun _ => 0) (oc := .threw) rfl rfl
    (by intro z v c t e; cases e) (by decide)
  obtain ⟨j1, s1, hm1⟩ := a1.junkless
  obtain ⟨w, e, h0, h1, hh⟩ := copied (a := (fun _ => 0, false)) hi
  obtain ⟨w1, e1, -, -, -, -⟩ := call_copy e h0 h1 hh s1
  have ed := step_destroy (k := nonlinearKind dN ℚ) rfl h0 hh
  obtain ⟨q, hq⟩ := hc dN _ w _ e 1 0 _ _ (by decide) e1 _ ed
  have h1' : World.set w.objs 0 none 1 = _ := (set_ne (i := 0) (j := 1) (by decide)).trans h1
  have := hq.symm.trans (step_call_dangling (k := nonlinearKind dN ℚ)
    (w := ⟨World.set w.objs 0 none, World.set w.heap 0 none, w.fresh⟩) h1' rfl)
  cases this

/-- Non-vacuity of `c74_nonlinear_partial`: two controllers, calls in turns. -/
example : ∃ (ops : List (WOp (nonlinearKind dN ℚ))) (w : World (nonlinearKind dN ℚ)) (outs : List (Option (NlOut ℚ))),
    NoCopies ops ∧ (World.empty _).run ops = .ok (w, outs) ∧ HorizonsOk dN ∧
      (∃ calls : List (NlCall dN ℚ), calls ≠ [] ∧
        about 0 ops = .create 0 (fun _ => 0, false) :: calls.map (fun op => .call 0 op) ∧ ∀ op ∈ calls, NlSpec.CallFits dN op) ∧
      about 1 ops = [.create 1 (fun _ => 0, false), .destroy 1] := by
  obtain ⟨m, hi, hm⟩ := dN_new
  obtain ⟨m1, r1, call1, a1⟩ := hm.asks (x0 := nvec 2 fun _ => 0) (u0 := nvec 1 fun _ => 0) (oc := .threw) rfl rfl
    (by intro z v c t e; cases e) (by decide)
  obtain ⟨j1, s1, hm1⟩ := a1.junkless
  let ops : List (WOp (nonlinearKind dN ℚ)) := [.create 0 (fun _ => (0 : ℚ), false), .create 1 (fun _ => (0 : ℚ), false),
    .call 0 (NlCall.optimize (nvec 2 fun _ => 0) (nvec 1 fun _ => 0) [] .threw j1), .destroy 1]
  have hn : NoCopies ops := by
    intro op ho
    simp only [ops, List.mem_cons, List.not_mem_nil, or_false] at ho
    rcases ho with rfl | rfl | rfl | rfl <;> trivial
  have hb := nonlinearKind_build (a := (fun _ => (0 : ℚ), false)).2 ⟨m, hi, rfl⟩
  obtain ⟨⟨w, outs⟩, h⟩ := c74_runs_partial (ops := ops) hn (fun i => by
    by_cases h0 : i = 0
    · subst h0
      exact ⟨_, aloneRun_create.2 ⟨_, hb, _, aloneRun_call.2 ⟨_, nonlinearKind_step.2 ⟨_, s1, rfl⟩, _, rfl, rfl⟩, rfl⟩⟩
    · by_cases h1 : i = 1
      · subst h1
        exact ⟨_, aloneRun_create.2 ⟨_, hb, _, rfl, rfl⟩⟩
      · have : about i ops = [] := by simp [about, ops, subject, Ne.symm h0, Ne.symm h1]
        rw [this]
        exact ⟨_, rfl⟩)
  refine ⟨ops, w, outs, hn, h, dN_ok, ⟨[_], by simp, rfl, ?_⟩, rfl⟩
  intro op ho
  obtain rfl := List.mem_singleton.1 ho
  obtain ⟨j, hf, -⟩ := a1.ask
  exact ⟨hf.1, hf.2.1, by simp, trivial⟩

/-- Non-vacuity of `c74_linear_history`: two controllers, calls in turns, one destroyed. -/
example : ∃ (ops : List (WOp (linearKind ℚ))) (w : World (linearKind ℚ)) (outs : List (Option (LOut ℚ)))
    (uninit : Nat → Nat → ℚ) (junk : Nat → Nat), (World.empty _).run ops = .ok (w, outs) ∧
      about 0 ops = .create 0 (sampleDims, uninit, junk) :: sampleOps.map (fun op => .call 0 op) ∧
      about 1 ops = [.create 1 (sampleDims, uninit, junk), .destroy 1] := by
  obtain ⟨m, m', r, call, ha⟩ := sample_asked 1 0 none
  obtain ⟨uninit, junk, m0, h0, e0⟩ := ha.built
  have hb := linearKind_build (a := (sampleDims, uninit, junk)).2 ⟨m0, h0, rfl⟩
  obtain ⟨q, hq⟩ := alone_linear_runs (i := 0) e0
  have ha0 : ∀ {b : Nat} (l : List (LOp ℚ)), about b (l.map fun op => (.call 0 op : WOp (linearKind ℚ))) =
      if b = 0 then l.map (fun op => .call 0 op) else [] := by
    intro b l
    unfold about
    split
    · rename_i h
      subst h
      exact List.filter_eq_self.2 fun x hx => by
        obtain ⟨y, -, rfl⟩ := List.mem_map.1 hx
        simp [subject]
    · rename_i h
      exact List.filter_eq_nil_iff.2 fun x hx => by
        obtain ⟨y, -, rfl⟩ := List.mem_map.1 hx
        exact fun e => h (of_decide_eq_true e).symm
  let ops : List (WOp (linearKind ℚ)) := .create 0 (sampleDims, uninit, junk) :: .create 1 (sampleDims, uninit, junk) ::
    .destroy 1 :: sampleOps.map fun op => .call 0 op
  have hn : NoCopies ops := by
    intro op ho
    rcases List.mem_cons.1 ho with rfl | ho
    · trivial
    rcases List.mem_cons.1 ho with rfl | ho
    · trivial
    rcases List.mem_cons.1 ho with rfl | ho
    · trivial
    obtain ⟨y, -, rfl⟩ := List.mem_map.1 ho
    trivial
  have e0 : about 0 ops = .create 0 (sampleDims, uninit, junk) :: sampleOps.map fun op => .call 0 op := by
    show WOp.create 0 _ :: about 0 (sampleOps.map fun op => (.call 0 op : WOp (linearKind ℚ))) = _
    rw [ha0, if_pos rfl]
  have e1 : about 1 ops = [.create 1 (sampleDims, uninit, junk), .destroy 1] := by
    show WOp.create 1 _ :: WOp.destroy 1 :: about 1 (sampleOps.map fun op => (.call 0 op : WOp (linearKind ℚ))) = _
    rw [ha0, if_neg (by decide)]
  obtain ⟨⟨w, outs⟩, h⟩ := c74_runs_partial (ops := ops) hn (fun i => by
    by_cases h0 : i = 0
    · subst h0
      rw [e0]
      exact ⟨_, aloneRun_create.2 ⟨_, hb, _, hq, rfl⟩⟩
    · by_cases h1 : i = 1
      · subst h1
        rw [e1]
        exact ⟨_, aloneRun_create.2 ⟨_, hb, _, rfl, rfl⟩⟩
      · have e2 : about i ops = about i (sampleOps.map fun op => (.call 0 op : WOp (linearKind ℚ))) := by
          simp [about, ops, subject, Ne.symm h0, Ne.symm h1]
        rw [e2, ha0, if_neg h0]
        exact ⟨_, rfl⟩)
  exact ⟨ops, w, outs, uninit, junk, h, e0, e1⟩

/-! ### C75 -/

/-- C75 as stated: in every program, destroying a live controller does not fault, and when no controller is left, none of
the memory they allocated is. -/
def C75Claim (k : Kind) : Prop :=
  ∀ (ops : List (WOp k)) w outs, (World.empty k).run ops = .ok (w, outs) →
    (∀ i o, w.objs i = some o → ∃ r, w.step (.destroy i) = .ok r) ∧
    ((∀ i, w.objs i = none) → ∀ p, w.heap p = none)

/-- C75 is violated for the linear controller: its optimizer is not released (a program which constructs one controller and
destroys it). -/
theorem c75_linear_violated : ¬ C75Claim (linearKind ℚ) := by
  intro hc
  obtain ⟨m, m', r, call, ha⟩ := sample_asked 1 0 none
  obtain ⟨uninit, junk, m0, h0, -⟩ := ha.built
  have hb := linearKind_build (a := (sampleDims, uninit, junk)).2 ⟨m0, h0, rfl⟩
  have e1 := step_create (w := World.empty (linearKind ℚ)) (i := 0) rfl hb
  have e2 := run_snoc (ops := []) (outs := []) (w := World.empty (linearKind ℚ)) rfl e1
  have e3 := run_snoc e2 (step_destroy_keeps (i := 0) (o := ⟨(m0.d, m0.b), 0⟩) rfl rfl)
  have := (hc _ _ _ e3).2 (fun i => by
    show World.set (World.set _ 0 _) 0 none i = none
    by_cases hi : i = 0
    · subst hi; rfl
    · rw [set_ne hi, set_ne hi]; rfl) 0
  cases this

/-- C75, partial, for the linear controller: destroying never faults, and exactly one optimizer per constructed controller
is allocated at any time, whatever was destroyed. (Missing: their release.) -/
theorem c75_linear_partial {ops : List (WOp (linearKind K))} {w : World (linearKind K)} {outs}
    (hr : (World.empty (linearKind K)).run ops = .ok (w, outs)) :
    (∀ i o, w.objs i = some o → ∃ r, w.step (.destroy i) = .ok r) ∧ ∀ p, (w.heap p).isSome = true ↔ p < constructed ops := by
  refine ⟨fun i o hi => ⟨_, step_destroy_keeps rfl hi⟩, fun p => ?_⟩
  obtain ⟨h1, h2⟩ := run_full (k := linearKind K) (fun _ => rfl) (fun p => by simp [World.empty]) hr
  rw [h1 p, h2]
  simp [World.empty]

/-- C75 is violated for the nonlinear controller: destroying a copy after the original releases the optimizer twice. -/
theorem c75_nonlinear_violated : ∃ d, ¬ C75Claim (nonlinearKind d ℚ) := by
  refine ⟨dN, fun hc => ?_⟩
  obtain ⟨m, hi, hm⟩ := dN_new
  obtain ⟨w, e, h0, h1, hh⟩ := copied (a := (fun _ => 0, false)) hi
  have ed := step_destroy (k := nonlinearKind dN ℚ) rfl h0 hh
  have h1' : World.set w.objs 0 none 1 = _ := (set_ne (i := 0) (j := 1) (by decide)).trans h1
  obtain ⟨r, hr⟩ := (hc _ _ _ (run_snoc e ed)).1 1 _ h1'
  have := hr.symm.trans (step_destroy_twice (k := nonlinearKind dN ℚ)
    (w := ⟨World.set w.objs 0 none, World.set w.heap 0 none, w.fresh⟩) rfl h1' rfl)
  cases this

/-- C75, partial, for the nonlinear controller: in programs without copies the claim holds, and at any time the optimizers
allocated are those of the live controllers. (Missing: programs with copies.) -/
theorem c75_nonlinear_partial {d : Dims} {ops : List (WOp (nonlinearKind d K))} {w : World (nonlinearKind d K)} {outs}
    (hn : NoCopies ops) (hr : (World.empty (nonlinearKind d K)).run ops = .ok (w, outs)) :
    (∀ i o, w.objs i = some o → ∃ r, w.step (.destroy i) = .ok r) ∧
    (∀ p, (w.heap p).isSome = true ↔ ∃ i o, w.objs i = some o ∧ o.ptr = p) ∧
    ((∀ i, w.objs i = none) → ∀ p, w.heap p = none) := by
  have h1 := (run_apart apart_empty hn hr).1
  have h2 := run_owned (k := nonlinearKind d K) (fun _ => rfl) apart_empty (fun p c hp => by cases hp) hn hr
  have h3 : ∀ p, (w.heap p).isSome = true ↔ ∃ i o, w.objs i = some o ∧ o.ptr = p := by
    intro p
    constructor
    · intro hp
      obtain ⟨c, hc⟩ := Option.isSome_iff_exists.1 hp
      obtain ⟨o, ho, hp⟩ := h2 p c hc
      exact ⟨_, o, ho, hp⟩
    · rintro ⟨i, o, ho, rfl⟩
      obtain ⟨c, hc, -⟩ := h1.own i o ho
      rw [hc]; rfl
  refine ⟨fun i o ho => ?_, h3, fun hnone p => ?_⟩
  · obtain ⟨c, hc, -⟩ := h1.own i o ho
    exact ⟨_, step_destroy rfl ho hc⟩
  · cases hp : w.heap p with
    | none => rfl
    | some c =>
      obtain ⟨i, o, ho, -⟩ := (h3 p).1 (by rw [hp]; rfl)
      rw [hnone i] at ho
      cases ho

end Mpc.Props
