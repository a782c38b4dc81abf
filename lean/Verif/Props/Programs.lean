import Verif.Proofs.Programs
import Verif.Proofs.LinAccept
import Verif.Props.NlFeasible

/-
C120: programs which use a controller.

In English: whatever a controller hands out - commands, sequences, before the first `optimize` and after failed ones too - has
the documented size and can be handed back. So a program which only makes legal calls as long as the controller behaves as
documented - such as a control loop which passes the last command to the next `optimize` - never meets a fault, for any
number of steps and whatever the solver does. The example programs of the repository are such programs; in the nonlinear ones,
a result which is flagged feasible respects the input limit of the example.
-/
namespace Mpc.Props
open Mpc Exec Mpc.Spec
set_option linter.unusedSectionVars false

section linear
variable {K : Type} [Field K] [DecidableEq K] {d : Dims}

/-- A careful program with a linear controller makes any number of calls (unless it ends), and the controller behaves as
documented. -/
theorem c120_linear (hd : d.Valid) (hle : d.ch ≤ d.ph) (hph : d.ph < 2 ^ 30) (uninit : Nat → Nat → K) (junk : Nat → Nat)
    {p : LProgram K} (hp : LCareful d p) (n : Nat) :
    ∃ m past, LMpc.play d uninit junk p n = .ok (m, past) ∧ (∀ e ∈ past, LEventOk d e) ∧ (past.length = n + 1 ∨ p past = none) := by
  obtain ⟨m, past, h1, h2, h3⟩ := play_total (p := p) (LPlayed d) (LPlayed.start hd uninit junk) (fun m past op h ho => by
    obtain ⟨a, b, c⟩ := hp past h.events op ho
    exact h.next hle hph a b c) n
  exact ⟨m, past, h1, h2.events, h3⟩

end linear

section nonlinear
variable {K : Type} [Field K] [LinearOrder K] [IsStrictOrderedRing K] {d : Dims}

/-- The same for the nonlinear controller. -/
theorem c120_nonlinear (hor : HorizonsOk d) (hph : d.ph < 2 ^ 30) (mem : d.ph * d.nx + d.nu * d.ch + 1 ≤ 2 ^ 64) (junk : Nat → K)
    (dyn : Bool) {p : NlProgram d K} (hp : NlCareful d dyn p) (n : Nat) :
    ∃ m past, NlMpc.play d junk dyn p n = .ok (m, past) ∧ (∀ e ∈ past, NlEventOk d e) ∧ (past.length = n + 1 ∨ p past = none) := by
  obtain ⟨m, past, h1, h2, h3⟩ := play_total (p := p) (NlPlayed d dyn) (NlPlayed.start hor mem junk dyn) (fun m past op h ho => by
    obtain ⟨a, b⟩ := hp past h.events op ho
    exact h.next hph a b) n
  exact ⟨m, past, h1, h2.events, h3⟩

/-! ### control loops -/

/-- A control loop around the nonlinear controller: the calls of `setup`, then `optimize` for ever, with the last command and
the state of a plant `plant` which may depend on everything so far; `solver` is what NLopt does, which may too. -/
def nlLoop (setup : List (NlCall d K)) (plant : List (Event (NlCall d K) (NlOut K) K) → FVec d.nx K)
    (solver : List (Event (NlCall d K) (NlOut K) K) → SolverRun K) : NlProgram d K :=
  script setup fun past => match past with
    | [] => none
    | e :: _ => some (.optimize (Vec.ofF (plant past)) e.shows.last.cmd (solver past).evaluations (solver past).outcome
        (solver past).junk)

/-- Every control loop goes on for ever. -/
theorem c120_loop (hor : HorizonsOk d) (hph : d.ph < 2 ^ 30) (mem : d.ph * d.nx + d.nu * d.ch + 1 ≤ 2 ^ 64) (junk : Nat → K)
    (dyn : Bool) {setup : List (NlCall d K)} (hs : ∀ op ∈ setup, NlSpec.CallFits d op ∧ NlSpec.Admissible d dyn [] op)
    (plant : List (Event (NlCall d K) (NlOut K) K) → FVec d.nx K)
    {solver : List (Event (NlCall d K) (NlOut K) K) → SolverRun K} (hr : ∀ past, RunFits d (solver past)) (n : Nat) :
    ∃ m past, NlMpc.play d junk dyn (nlLoop setup plant solver) n = .ok (m, past) ∧ (∀ e ∈ past, NlEventOk d e) ∧
      past.length = n + 1 := by
  have hc : NlCareful d dyn (nlLoop setup plant solver) := by
    intro past hev op hop
    rcases script_cases hop with h | ⟨-, h⟩
    · exact hs op (List.mem_of_getElem? h)
    · cases past with
      | nil => cases h
      | cons e past =>
        cases h
        obtain ⟨r1, r2⟩ := hr (e :: past)
        refine ⟨⟨rfl, (hev e (by simp)).fits.cmd, r1, ?_⟩, trivial⟩
        cases ho : (solver (e :: past)).outcome with
        | threw => trivial
        | answered z v c t => exact r2 z v c t ho
  obtain ⟨m, past, h1, h2, h3⟩ := c120_nonlinear hor hph mem junk dyn hc n
  refine ⟨m, past, h1, h2, ?_⟩
  rcases h3 with h3 | h3
  · exact h3
  · exfalso
    -- there is always a first event
    cases past with
    | nil =>
      have : ∀ n m past, NlMpc.play d junk dyn (nlLoop setup plant solver) n = .ok (m, past) → past ≠ [] := by
        intro n
        induction n with
        | zero =>
          intro m past h
          obtain ⟨m0, -, h⟩ := bind_eq_ok.1 h
          cases h
          simp
        | succ n ih =>
          intro m past h
          simp only [NlMpc.play, play] at h
          obtain ⟨q, hq, h⟩ := bind_eq_ok.1 h
          have := ih _ _ hq
          split at h
          · cases h; exact this
          · obtain ⟨r, -, h⟩ := bind_eq_ok.1 h
            cases h
            simp
      exact this _ _ _ h1 rfl
    | cons e past =>
      unfold nlLoop script at h3
      split at h3
      · cases h3
      · cases h3

/-- a result flagged feasible satisfies the inequality constraints set last at the reported sequence (and some slack), and the
command is the first reported input -/
theorem c120_flagged {dyn : Bool} {ops : List (NlCall d K)} {outs : List (NlOut K)} {m m' : NlMpc d K} {x0 u0 : Vec K}
    {cs : List (NlCallback K)} {oc : NlOutcome K} {r : LResult K} {call : NlSolverCall K}
    (h : NlAsked d dyn ops outs x0 u0 cs oc m m' r call) (hf : r.is_feasible = true)
    {F : Traj (d.ph + 1) d.nx K → Traj (d.ph + 1) d.ny K → Traj (d.ph + 1) d.nu K → K → FVec d.ineq K} {tol : K}
    (hl : NlSpec.last NlSpec.ineqConOf ops = some (F, tol)) :
    (∃ e, ∀ i, F (m'.o.seqState.viewF (d.ph + 1) d.nx) (m'.o.seqOutput.viewF (d.ph + 1) d.ny) (m'.o.seqInput.viewF (d.ph + 1) d.nu)
      e i ≤ tol) ∧ ∀ b, b < d.nu → r.cmd.get b = m'.o.seqInput.get 0 b := by
  rcases oc with _ | ⟨z, v, c, _ | _⟩
  · rw [c43_failure_infeasible h (by rintro z v c ⟨⟩)] at hf; cases hf
  · obtain ⟨-, -, -, ha⟩ := h.known
    have ha : NlMpc.Answered (NlCtl.after d ops outs) x0.get z.get v c r m'.o := ha
    have hi := ((c43_api_flag h rfl _ _ rfl rfl).1 hf).1 F tol hl
    rw [ha.seqS, ha.seqO, ha.seqI, after_inScale h.toNlRan.len, after_stScale h.toNlRan.len, after_out h.toNlRan.len]
    exact ⟨⟨_, hi⟩, (c58_sequences_partial h rfl).2.2.2.2.1⟩
  · rw [c43_failure_infeasible h (by rintro z v c ⟨⟩)] at hf; cases hf

theorem last_append {β α : Type} (f : β → Option α) (a b : List β) :
    NlSpec.last f (a ++ b) = (NlSpec.last f b).or (NlSpec.last f a) := by
  induction a with
  | nil => simp [NlSpec.last]
  | cons x a ih => simp only [List.cons_append, NlSpec.last, ih, Option.or_assoc]

theorem last_optimize {L : List (NlCall d K)} (h : ∀ op ∈ L, ∃ x u cs oc j, op = .optimize x u cs oc j) :
    NlSpec.last NlSpec.ineqConOf L = none := by
  induction L with
  | nil => rfl
  | cons op L ih =>
    obtain ⟨x, u, cs, oc, j, rfl⟩ := h op (by simp)
    rw [NlSpec.last, ih fun o ho => h o (by simp [ho])]
    rfl

/-- A program which makes the calls of `setup`, among them the inequality constraints `F`, and then only calls `optimize`:
besides what `c120_nonlinear` says, results flagged feasible satisfy `F` at the reported sequence. -/
theorem c120_script (hor : HorizonsOk d) (hph : d.ph < 2 ^ 30) (mem : d.ph * d.nx + d.nu * d.ch + 1 ≤ 2 ^ 64) (junk : Nat → K)
    (dyn : Bool) {setup : List (NlCall d K)} (hs : ∀ op ∈ setup, NlSpec.CallFits d op ∧ NlSpec.Admissible d dyn [] op)
    (hno : ∀ x u cs oc j, NlCall.optimize x u cs oc j ∉ setup)
    {F : Traj (d.ph + 1) d.nx K → Traj (d.ph + 1) d.ny K → Traj (d.ph + 1) d.nu K → K → FVec d.ineq K} {tol : K}
    (hl : NlSpec.last NlSpec.ineqConOf setup = some (F, tol)) {loop : NlProgram d K}
    (hloop : ∀ past, past ≠ [] → (∀ e ∈ past, NlEventOk d e) → ∀ op, loop past = some op →
      NlSpec.CallFits d op ∧ ∃ x u cs oc j, op = .optimize x u cs oc j) (n : Nat) :
    ∃ m past, NlMpc.play d junk dyn (script setup loop) n = .ok (m, past) ∧ (∀ e ∈ past, NlEventOk d e) ∧
      (past.length = n + 1 ∨ script setup loop past = none) ∧
      ∀ e ∈ past, ∀ x u cs oc j out, e.call = some (.optimize x u cs oc j, out) → e.shows.last.is_feasible = true →
        (∃ s, ∀ i, F (e.shows.states.viewF (d.ph + 1) d.nx) (e.shows.outputs.viewF (d.ph + 1) d.ny)
          (e.shows.inputs.viewF (d.ph + 1) d.nu) s i ≤ tol) ∧
        ∀ b, b < d.nu → e.shows.last.cmd.get b = e.shows.inputs.get 0 b := by
  obtain ⟨m, past, h1, h2, h3⟩ := play_total (p := script setup loop) (start := NlMpc.init d junk dyn) (step := NlMpc.step)
    (look := NlMpc.look)
    (fun m past => NlPlayed d dyn m past ∧ past ≠ [] ∧ (callsOf past).length = past.length - 1 ∧
      (∃ L, (∀ op ∈ L, ∃ x u cs oc j, op = NlCall.optimize x u cs oc j) ∧ callsOf past = setup.take (past.length - 1) ++ L) ∧
      ∀ e ∈ past, ∀ x u cs oc j out, e.call = some (.optimize x u cs oc j, out) → e.shows.last.is_feasible = true →
        (∃ s, ∀ i, F (e.shows.states.viewF (d.ph + 1) d.nx) (e.shows.outputs.viewF (d.ph + 1) d.ny)
          (e.shows.inputs.viewF (d.ph + 1) d.nu) s i ≤ tol) ∧
        ∀ b, b < d.nu → e.shows.last.cmd.get b = e.shows.inputs.get 0 b)
    (by
      obtain ⟨m, hm, hp⟩ := NlPlayed.start hor mem junk dyn
      refine ⟨m, hm, hp, by simp, rfl, ⟨[], by simp, by simp [callsOf]⟩, ?_⟩
      intro e he x u cs oc j out hc
      rw [List.mem_singleton.1 he] at hc
      cases hc)
    (by
      rintro m past op ⟨hp, hne, hlen, ⟨L, hL, hcalls⟩, hfl⟩ hop
      have hpos : 0 < past.length := List.length_pos_iff.2 hne
      have hcase := script_cases hop
      have hfit : NlSpec.CallFits d op ∧ NlSpec.Admissible d dyn [] op := by
        rcases hcase with h | ⟨-, h⟩
        · exact hs op (List.mem_of_getElem? h)
        · obtain ⟨a, x, u, cs, oc, j, rfl⟩ := hloop past hne hp.events op h
          exact ⟨a, trivial⟩
      obtain ⟨r, hr, hp'⟩ := hp.next hph hfit.1 hfit.2
      refine ⟨r, hr, hp', by simp, ?_, ?_, ?_⟩
      · rw [callsOf_cons, List.length_append, hlen, List.length_cons]
        simp only [List.length_cons, List.length_nil]
        omega
      · rcases hcase with h | ⟨hge, h⟩
        · have hlt : past.length - 1 < setup.length := (List.getElem?_eq_some_iff.1 h).1
          have hL0 : L = [] := by
            have := congrArg List.length hcalls
            rw [hlen, List.length_append, List.length_take, Nat.min_eq_left hlt.le] at this
            exact List.length_eq_zero_iff.1 (by omega)
          refine ⟨[], by simp, ?_⟩
          rw [callsOf_cons, hcalls, hL0, List.append_nil, List.append_nil, List.length_cons, Nat.add_sub_cancel]
          obtain ⟨k, hk⟩ : ∃ k, past.length = k + 1 := ⟨past.length - 1, by omega⟩
          rw [hk, Nat.add_sub_cancel] at h ⊢
          rw [List.take_add_one, h]
          rfl
        · obtain ⟨-, hopt⟩ := hloop past hne hp.events op h
          refine ⟨L ++ [op], ?_, ?_⟩
          · intro o ho
            rcases List.mem_append.1 ho with ho | ho
            · exact hL o ho
            · rw [List.mem_singleton.1 ho]; exact hopt
          · rw [callsOf_cons, hcalls, List.length_cons, Nat.add_sub_cancel, List.take_of_length_le hge,
              List.take_of_length_le (by omega), List.append_assoc]
      · intro e he x u cs oc j out hc hfeas
        rcases List.mem_cons.1 he with rfl | he
        · cases hc
          have hge : setup.length ≤ past.length - 1 := by
            rcases hcase with h | ⟨h, -⟩
            · exact absurd (List.mem_of_getElem? h) (hno x u cs oc j)
            · exact h
          obtain ⟨call, hcall⟩ := (hp'.events _ List.mem_cons_self).result x u cs oc j r.2 rfl
          have hask : NlAsked d dyn (callsOf past) (retsOf past) x u cs oc m r.1 r.1.look.last call :=
            ⟨hp.ran, j, hfit.1, by rw [hr]; exact congrArg Except.ok (Prod.ext rfl hcall)⟩
          refine c120_flagged hask hfeas ?_
          rw [hcalls, List.take_of_length_le hge, last_append, last_optimize hL, hl]
          rfl
        · exact hfl e he x u cs oc j out hc hfeas) n
  exact ⟨m, past, h1, h2.1.events, h3, h2.2.2.2.2⟩

/-! ### the nonlinear example programs -/

/-- the commands of documented events have the right size -/
theorem applied_size {past : List (Event (NlCall d K) (NlOut K) K)} (h : ∀ e ∈ past, NlEventOk d e) :
    ∀ u ∈ Examples.applied past, u.size = d.nu := by
  intro u hu
  obtain ⟨e, he, hm⟩ := List.mem_filterMap.1 hu
  split at hm
  · rename_i x u' cs oc j r call hc
    cases hm
    obtain ⟨call', h2⟩ := (h e he).result x u' cs oc j _ hc
    cases h2
    exact (h e he).fits.cmd
  · cases hm

theorem lastCommand_size {past : List (Event (NlCall d K) (NlOut K) K)} (hne : past ≠ []) (h : ∀ e ∈ past, NlEventOk d e) :
    (Examples.lastCommand past).size = d.nu := by
  unfold Examples.lastCommand
  split
  · rename_i u us hu
    exact applied_size h u (by rw [hu]; simp)
  · cases past with
    | nil => exact absurd rfl hne
    | cons e past => exact (h e (by simp)).fits.cmd

/-- examples/vanderpol_ex.cpp (with the loop of python/examples/example_nl.py): the program never meets a fault; it goes on
until the oscillator is at rest; if a result is flagged feasible then no reported input and no command exceeds 0.5 by more than
the tolerance. -/
theorem c120_vanderpol (junk : Nat → K) (tol1 tol2 : K) (a1 a2 a3 : Bool) {solver : Nat → SolverRun K}
    (hr : ∀ k, RunFits Examples.vdpDims (solver k)) (n : Nat) :
    ∃ m past, NlMpc.play Examples.vdpDims junk false (Examples.vanderpol tol1 tol2 a1 a2 a3 solver) n = .ok (m, past) ∧
      (∀ e ∈ past, NlEventOk Examples.vdpDims e) ∧
      (past.length = n + 1 ∨ Examples.vanderpol tol1 tol2 a1 a2 a3 solver past = none) ∧
      ∀ e ∈ past, ∀ x u cs oc j out, e.call = some (.optimize x u cs oc j, out) → e.shows.last.is_feasible = true →
        (∀ k, k ≤ 10 → e.shows.inputs.get k 0 ≤ 1 / 2 + tol2) ∧ e.shows.last.cmd.get 0 ≤ 1 / 2 + tol2 := by
  obtain ⟨m, past, h1, h2, h3, h4⟩ := c120_script (d := Examples.vdpDims) ⟨by decide, by decide, by decide⟩ (by decide) (by decide)
    junk false (setup := Examples.vdpSetup tol1 tol2 a1 a2 a3) (loop := Examples.vdpLoop solver)
    (F := fun _ _ U _ i => U i 0 - 1 / 2) (tol := tol2)
    (by simp [Examples.vdpSetup, NlSpec.CallFits, NlSpec.Admissible]) (by simp [Examples.vdpSetup]) rfl
    (by
      intro past hne hev op hop
      unfold Examples.vdpLoop at hop
      dsimp only at hop
      split at hop
      · cases hop
      · obtain ⟨r1, r2⟩ := hr (Examples.applied past).length
        have hz : ∀ o : NlOutcome K, (∀ z v c t, o = .answered z v c t → z.size = 10 * 2 + 1 * 5 + 1) →
            (match o with | .threw => True | .answered z _ _ _ => z.size = 10 * 2 + 1 * 5 + 1) := by
          intro o ho
          cases o with
          | threw => trivial
          | answered z v c t => exact ho z v c t rfl
        cases hop
        exact ⟨⟨rfl, lastCommand_size hne hev, r1, hz _ r2⟩, _, _, _, _, _, rfl⟩) n
  refine ⟨m, past, h1, h2, h3, ?_⟩
  intro e he x u cs oc j out hc hf
  obtain ⟨⟨s, hi⟩, hcmd⟩ := h4 e he x u cs oc j out hc hf
  have key : ∀ k, k ≤ 10 → e.shows.inputs.get k 0 ≤ 1 / 2 + tol2 := by
    intro k hk
    have h5 := hi ⟨k, by show k < 11; omega⟩
    have h6 : e.shows.inputs.get k 0 - 1 / 2 ≤ tol2 := h5
    rw [add_comm]
    exact sub_le_iff_le_add.1 h6
  exact ⟨key, by rw [hcmd 0 (by decide)]; exact key 0 (by decide)⟩

/-- examples/networked_oscillators_ex.cpp, in the same way; the limit is one on the first of the four inputs -/
theorem c120_oscillators (junk : Nat → K) (tol1 tol2 : K) (a1 a2 a3 : Bool) {solver : Nat → SolverRun K}
    (hr : ∀ k, RunFits Examples.oscDims (solver k)) (n : Nat) :
    ∃ m past, NlMpc.play Examples.oscDims junk false (Examples.oscillators tol1 tol2 a1 a2 a3 solver) n = .ok (m, past) ∧
      (∀ e ∈ past, NlEventOk Examples.oscDims e) ∧
      (past.length = n + 1 ∨ Examples.oscillators tol1 tol2 a1 a2 a3 solver past = none) ∧
      ∀ e ∈ past, ∀ x u cs oc j out, e.call = some (.optimize x u cs oc j, out) → e.shows.last.is_feasible = true →
        (∀ k, k ≤ 20 → e.shows.inputs.get k 0 ≤ 1 / 2 + tol2) ∧ e.shows.last.cmd.get 0 ≤ 1 / 2 + tol2 := by
  obtain ⟨m, past, h1, h2, h3, h4⟩ := c120_script (d := Examples.oscDims) ⟨by decide, by decide, by decide⟩ (by decide) (by decide)
    junk false (setup := Examples.oscSetup tol1 tol2 a1 a2 a3) (loop := Examples.oscLoop solver)
    (F := fun _ _ U _ i => U i 0 - 1 / 2) (tol := tol2)
    (by simp [Examples.oscSetup, NlSpec.CallFits, NlSpec.Admissible]) (by simp [Examples.oscSetup]) rfl
    (by
      intro past hne hev op hop
      unfold Examples.oscLoop at hop
      dsimp only at hop
      split at hop
      · cases hop
      · obtain ⟨r1, r2⟩ := hr (Examples.applied past).length
        have hz : ∀ o : NlOutcome K, (∀ z v c t, o = .answered z v c t → z.size = 20 * 8 + 4 * 10 + 1) →
            (match o with | .threw => True | .answered z _ _ _ => z.size = 20 * 8 + 4 * 10 + 1) := by
          intro o ho
          cases o with
          | threw => trivial
          | answered z v c t => exact ho z v c t rfl
        cases hop
        exact ⟨⟨rfl, lastCommand_size hne hev, r1, hz _ r2⟩, _, _, _, _, _, rfl⟩) n
  refine ⟨m, past, h1, h2, h3, ?_⟩
  intro e he x u cs oc j out hc hf
  obtain ⟨⟨s, hi⟩, hcmd⟩ := h4 e he x u cs oc j out hc hf
  have key : ∀ k, k ≤ 20 → e.shows.inputs.get k 0 ≤ 1 / 2 + tol2 := by
    intro k hk
    have h5 := hi ⟨k, by show k < 21; omega⟩
    have h6 : e.shows.inputs.get k 0 - 1 / 2 ≤ tol2 := h5
    rw [add_comm]
    exact sub_le_iff_le_add.1 h6
  exact ⟨key, by rw [hcmd 0 (by decide)]; exact key 0 (by decide)⟩

/-- a solver which fails in every turn, and one which answers zeros -/
example : RunFits (K := ℚ) Examples.vdpDims ⟨[], .threw, fun _ => 0⟩ ∧
    RunFits (K := ℚ) Examples.vdpDims ⟨[.obj (Vec.const 26 0) true (fun _ => 0)], .answered (Vec.const 26 0) (.fin 0) 1 false, fun _ => 0⟩ :=
  ⟨⟨by simp, by rintro z v c t ⟨⟩⟩, by simp [NlSpec.CallbackFits, Vec.const], by rintro z v c t ⟨⟩; rfl⟩

end nonlinear

/-! ### the linear example programs -/

section linear
variable {K : Type} [Field K] [DecidableEq K]

theorem lApplied_size {d : Dims} {past : List (Event (LOp K) (LOut K) K)} (h : ∀ e ∈ past, LEventOk d e) :
    ∀ u ∈ Examples.lApplied past, u.size = d.nu := by
  intro u hu
  obtain ⟨e, he, hm⟩ := List.mem_filterMap.1 hu
  split at hm
  · rename_i x u' oc r call hc
    cases hm
    obtain ⟨call', h2⟩ := (h e he).result x u' oc _ hc
    cases h2
    exact (h e he).fits.cmd
  · cases hm

/-- python/examples/example.py, for any number of turns: the program never meets a fault, whatever OSQP answers -/
theorem c120_python (uninit : Nat → Nat → K) (junk : Nat → Nat) (turns : Nat) {oc : OsqpOutcome K} (ho : oc ≠ .rejected)
    {solver : Nat → OsqpOutcome K} (hr : ∀ k, solver k ≠ .rejected) (n : Nat) :
    ∃ m past, LMpc.play Examples.pyDims uninit junk (Examples.pyExample turns oc solver) n = .ok (m, past) ∧
      (∀ e ∈ past, LEventOk Examples.pyDims e) ∧ (past.length = n + 1 ∨ Examples.pyExample turns oc solver past = none) := by
  have hans : ∀ oc : OsqpOutcome K, oc ≠ .rejected → ∃ s o v, oc = .answered s o v := by
    intro oc h
    cases oc with
    | rejected => exact absurd rfl h
    | answered s o v => exact ⟨s, o, v, rfl⟩
  refine c120_linear ⟨by decide, by decide, by decide, by decide⟩ (by decide) (by decide) uninit junk ?_ n
  intro past hev op hop
  rcases script_cases hop with h | ⟨-, h⟩
  · have hm := List.mem_of_getElem? h
    simp only [Examples.pySetup, List.mem_cons, List.not_mem_nil, or_false] at hm
    rcases hm with rfl | rfl | rfl
    · exact ⟨⟨⟨rfl, rfl⟩, ⟨rfl, rfl⟩, rfl, rfl⟩, by rintro s ⟨⟩, trivial⟩
    · exact ⟨⟨rfl, rfl, rfl, by simp [HorizonSlice.Int32, HorizonSlice.all]⟩, by rintro s ⟨⟩; exact .inl rfl, trivial⟩
    · exact ⟨⟨rfl, rfl⟩, by rintro s ⟨⟩, hans oc ho⟩
  · unfold Examples.pyLoop at h
    dsimp only at h
    split at h
    · cases h
    · have hx : ∀ us : List (Vec K), (Examples.pyPlant us).size = 4 := fun us => by cases us <;> rfl
      split at h
      all_goals cases h
      · rename_i u us hus
        refine ⟨⟨hx _, ?_⟩, by rintro s ⟨⟩, hans _ (hr _)⟩
        exact lApplied_size hev u (List.mem_of_mem_dropLast (by rw [hus]; simp))
      · exact ⟨⟨hx _, rfl⟩, by rintro s ⟨⟩, hans _ (hr _)⟩

/-- what is called in the example: setters with usable slices, parameters of the linear controller and `optimize` -/
theorem c120_python_true (uninit : Nat → Nat → K) (junk : Nat → Nat) (turns : Nat) {oc : OsqpOutcome K} {solver : Nat → OsqpOutcome K}
    {n : Nat} {m : LMpc K} {past : List (Event (LOp K) (LOut K) K)}
    (h : LMpc.play Examples.pyDims uninit junk (Examples.pyExample turns oc solver) n = .ok (m, past))
    (hev : ∀ e ∈ past, LEventOk Examples.pyDims e) :
    ∀ e ∈ past, ∀ op out, e.call = some (op, out) → out = .bool true ∨ ∃ r call, out = .result r call := by
  intro e he op out hc
  obtain ⟨before, hb⟩ := play_calls h e he op out hc
  have ev := hev e he
  rcases script_cases hb with hm | ⟨-, hm⟩
  · have hm := List.mem_of_getElem? hm
    simp only [Examples.pySetup, List.mem_cons, List.not_mem_nil, or_false] at hm
    rcases hm with rfl | rfl | rfl
    · exact .inl (ev.accepted _ _ hc trivial)
    · exact .inl (ev.accepted _ _ hc (.inl rfl))
    · obtain ⟨call, hr⟩ := ev.result _ _ _ _ hc
      exact .inr ⟨_, _, hr⟩
  · unfold Examples.pyLoop at hm
    dsimp only at hm
    split at hm
    · cases hm
    · cases hm
      obtain ⟨call, hr⟩ := ev.result _ _ _ _ hc
      exact .inr ⟨_, _, hr⟩

/-- examples/quadrotor_ex.cpp: all nine calls are made; the seven setters return true, `optimize` returns a result. -/
theorem c120_quadrotor (uninit : Nat → Nat → K) (junk : Nat → Nat) (pi : K) {oc : OsqpOutcome K} (ho : oc ≠ .rejected) :
    ∃ m past, LMpc.play Examples.quadDims uninit junk (Examples.quadrotor pi oc) 9 = .ok (m, past) ∧ past.length = 10 ∧
      (∀ e ∈ past, LEventOk Examples.quadDims e) ∧ ∀ e ∈ past, ∀ op out, e.call = some (op, out) →
        out = .bool true ∨ (∃ p, op = .setOptimizerParameters p) ∨ ∃ r call, out = .result r call := by
  have hans : ∃ s o v, oc = .answered s o v := by
    cases oc with
    | rejected => exact absurd rfl ho
    | answered s o v => exact ⟨s, o, v, rfl⟩
  have i32 : HorizonSlice.Int32 ⟨0, 10⟩ := by simp [HorizonSlice.Int32]
  have sl : SliceIn 10 ⟨0, 10⟩ := .inr (by simp)
  obtain ⟨m, past, h1, h2, h3⟩ := c120_linear (d := Examples.quadDims) (p := Examples.quadrotor pi oc)
    ⟨by decide, by decide, by decide, by decide⟩ (by decide) (by decide) uninit junk (by
    intro past hev op hop
    rcases script_cases hop with h | ⟨-, h⟩
    · have hm := List.mem_of_getElem? h
      simp only [Examples.quadCalls, List.mem_cons, List.not_mem_nil, or_false] at hm
      rcases hm with rfl | rfl | rfl | rfl | rfl | rfl | rfl | rfl | rfl
      · exact ⟨⟨⟨rfl, rfl⟩, ⟨rfl, rfl⟩, rfl, rfl⟩, by rintro s ⟨⟩, trivial⟩
      · exact ⟨⟨rfl, rfl, rfl, i32⟩, by rintro s ⟨⟩; exact .inr le_rfl, trivial⟩
      · exact ⟨⟨rfl, rfl, i32⟩, by rintro s ⟨⟩; exact .inr le_rfl, trivial⟩
      · exact ⟨⟨rfl, rfl, i32⟩, by rintro s ⟨⟩; exact .inr le_rfl, trivial⟩
      · exact ⟨⟨rfl, rfl, i32⟩, by rintro s ⟨⟩; exact .inr le_rfl, fun _ => rfl⟩
      · exact ⟨⟨⟨rfl, rfl⟩, ⟨rfl, rfl⟩, rfl, rfl⟩, by rintro s ⟨⟩, trivial⟩
      · exact ⟨⟨rfl, rfl, rfl, i32⟩, by rintro s ⟨⟩; exact .inr le_rfl, trivial⟩
      · exact ⟨trivial, by rintro s ⟨⟩, _, rfl⟩
      · exact ⟨⟨rfl, rfl⟩, by rintro s ⟨⟩, hans⟩
    · cases h) 9
  refine ⟨m, past, h1, ?_, h2, ?_⟩
  · rcases h3 with h3 | h3
    · exact h3
    · have hle := play_length h1
      have hge : 9 ≤ past.length - 1 := by
        unfold Examples.quadrotor script at h3
        split at h3
        · cases h3
        · rename_i hn
          exact List.getElem?_eq_none_iff.1 hn
      omega
  · intro e he op out hc
    obtain ⟨before, hb⟩ := play_calls h1 e he op out hc
    have ev := h2 e he
    rcases script_cases hb with hm | ⟨-, hm⟩
    · have hm := List.mem_of_getElem? hm
      simp only [Examples.quadCalls, List.mem_cons, List.not_mem_nil, or_false] at hm
      rcases hm with rfl | rfl | rfl | rfl | rfl | rfl | rfl | rfl | rfl
      · exact .inl (ev.accepted _ _ hc trivial)
      · exact .inl (ev.accepted _ _ hc sl)
      · exact .inl (ev.accepted _ _ hc sl)
      · exact .inl (ev.accepted _ _ hc sl)
      · exact .inl (ev.accepted _ _ hc ⟨sl, by rw [if_neg (by decide)]; exact le_refl _⟩)
      · exact .inl (ev.accepted _ _ hc trivial)
      · exact .inl (ev.accepted _ _ hc sl)
      · exact .inr (.inl ⟨_, rfl⟩)
      · obtain ⟨call, hr⟩ := ev.result _ _ _ _ hc
        exact .inr (.inr ⟨_, _, hr⟩)
    · cases hm

end linear
end Mpc.Props
