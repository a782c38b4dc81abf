import Verif.Spec.ProgramsEnv
import Verif.Proofs.Programs
import Verif.Props.Environment

/-
Programs whose user functions read variables.
-/
namespace Mpc
open Exec
set_option linter.unusedSectionVars false
variable {E : Type} {d : Dims} {K : Type} [Field K] [LinearOrder K] [IsStrictOrderedRing K]

/-- What the play of such a program has come to. -/
structure EnvPlayed (d : Dims) (dyn : Bool) (q : Handles E d K × NlMpc d K) (past : List (Event (E × EnvCall E d K) (NlOut K) K)) :
    Prop where
  ran : Props.EnvRan d dyn (callsOf past) (retsOf past) q.1 q.2
  adm : NlSpec.EnvAdmissible d dyn (callsOf past)
  shows : Spec.ShownFits d q.2.look
  events : ∀ e ∈ past, Spec.EnvEventOk d e

theorem EnvPlayed.start (hor : Props.HorizonsOk d) (mem : d.ph * d.nx + d.nu * d.ch + 1 ≤ 2 ^ 64) (junk : Nat → K) (dyn : Bool) :
    ∃ q : Handles E d K × NlMpc d K, (do
      let m ← NlMpc.init d junk dyn
      return (({} : Handles E d K), m) : Exec _) = .ok q ∧ EnvPlayed d dyn q [⟨none, q.2.look⟩] := by
  obtain ⟨m, hm, hl⟩ := NlMpc.look_fits_init hor.ch_pos hor.ch_le hor.ph_int junk dyn
  refine ⟨({}, m), by rw [hm]; rfl, ⟨hor, mem, by intro p hp; simp [callsOf] at hp, junk, ?_⟩, ?_, hl, ?_⟩
  · show Handles.run d junk dyn [] = _
    unfold Handles.run
    rw [List.foldl_nil, hm, ok_bind]; rfl
  · intro p hp
    simp [callsOf] at hp
  · intro e he
    rw [List.mem_singleton.1 he]
    exact ⟨hl, by rintro v op out ⟨⟩, by rintro v x u vs en j r call ⟨⟩⟩

/-- what `Effect` says about what is shown -/
theorem effect_shows {c : NlCtl d K} {o o' : NlOpt K} {out : NlOut K} {op : EnvCall E d K} {e : E}
    (h : Effect c o o' out (NlSpec.course (op.frozen e))) (he : NlSpec.escapes (op.frozen e) = false) (hc : o'.result.cmd.size = d.nu)
    (hl : Spec.ShownFits d (⟨o.result, o.seqState, o.seqInput, o.seqOutput⟩ : Shown K)) :
    Spec.ShownFits d (⟨o'.result, o'.seqState, o'.seqInput, o'.seqOutput⟩ : Shown K) ∧
      (NlSpec.reports op = true → ∃ call, out = .result o'.result call) := by
  have caught : ∀ (x0 u0 : Vec K) (oc : NlOutcome K),
      (∃ r call, out = .result r call ∧ r = o'.result ∧ NlMpc.Given c x0.get u0.get call ∧
        NlMpc.Reported c o.result x0.get r o' oc) →
      Spec.ShownFits d (⟨o'.result, o'.seqState, o'.seqInput, o'.seqOutput⟩ : Shown K) ∧
      (NlSpec.reports op = true → ∃ call, out = .result o'.result call) := by
    rintro x0 u0 oc ⟨r, call, rfl, rfl, -, hrep⟩
    refine ⟨?_, fun _ => ⟨call, rfl⟩⟩
    suffices h3 : (o'.seqState.rows = d.ph + 1 ∧ o'.seqState.cols = d.nx) ∧
        (o'.seqInput.rows = d.ph + 1 ∧ o'.seqInput.cols = d.nu) ∧
        (o'.seqOutput.rows = d.ph + 1 ∧ o'.seqOutput.cols = d.ny) from ⟨hc, h3.1, h3.2.1, h3.2.2⟩
    rcases oc with _ | ⟨z, v, k, _ | _⟩
    · have hrep : NlMpc.Failed d o.result o'.result o' := hrep
      rw [hrep.seqS, hrep.seqI, hrep.seqO]
      exact ⟨⟨rfl, rfl⟩, ⟨rfl, rfl⟩, ⟨rfl, rfl⟩⟩
    · have hrep : NlMpc.Answered c x0.get z.get v k o'.result o' := hrep
      exact ⟨hrep.sS, hrep.sI, hrep.sO⟩
    · have hrep : NlMpc.Failed d o.result o'.result o' := hrep
      rw [hrep.seqS, hrep.seqI, hrep.seqO]
      exact ⟨⟨rfl, rfl⟩, ⟨rfl, rfl⟩, ⟨rfl, rfl⟩⟩
  have plain : Props.NlReport o o' → NlSpec.reports op = false →
      Spec.ShownFits d (⟨o'.result, o'.seqState, o'.seqInput, o'.seqOutput⟩ : Shown K) ∧
      (NlSpec.reports op = true → ∃ call, out = .result o'.result call) := by
    rintro ⟨e1, e2, e3, e4⟩ hr
    rw [e1, e2, e3, e4]
    exact ⟨hl, fun h => by rw [hr] at h; cases h⟩
  cases op with
  | optimize x0 u0 vs ending junk =>
    cases ending with
    | outputThrows z => cases he
    | solverThrows => exact caught x0 u0 _ h
    | checkThrows z w => exact caught x0 u0 _ h
    | returns z v k => exact caught x0 u0 _ h
  | call q =>
    cases q with
    | optimize x0 u0 cs oc j =>
      cases oc with
      | threw => exact caught x0 u0 _ h
      | answered z v k t => cases t <;> exact caught x0 u0 _ h
    | _ => exact plain h.2 rfl
  | setObjectiveFunction f acc => exact plain h.2 rfl
  | setStateSpaceFunction F tol acc => exact plain h.2 rfl
  | setOutputFunction g => exact plain h.2 rfl
  | setIneqConFunction F tol acc => exact plain h.2 rfl
  | setEqConFunction F tol acc => exact plain h.2 rfl

theorem EnvPlayed.next {dyn : Bool} {q : Handles E d K × NlMpc d K} {past : List (Event (E × EnvCall E d K) (NlOut K) K)}
    (h : EnvPlayed d dyn q past) (hp : d.ph < 2 ^ 30) {v : E} {op : EnvCall E d K} (hf : NlSpec.TCallFits d (op.frozen v))
    (ha : NlSpec.TAdmissible d dyn (op.frozen v)) (he : NlSpec.escapes (op.frozen v) = false) :
    ∃ r, q.1.step v q.2 op = .ok r ∧ EnvPlayed d dyn r.1 (⟨some ((v, op), r.2), r.1.2.look⟩ :: past) := by
  have hfits : NlSpec.EnvFits d (callsOf past ++ [(v, op)]) := by
    intro p hp
    rcases List.mem_append.1 hp with hp | hp
    · exact h.ran.fits p hp
    · rw [List.mem_singleton.1 hp]; exact hf
  have hadm : NlSpec.EnvAdmissible d dyn (callsOf past ++ [(v, op)]) := by
    intro p hp
    rcases List.mem_append.1 hp with hp | hp
    · exact h.adm p hp
    · rw [List.mem_singleton.1 hp]; exact ha
  obtain ⟨junk, hrun⟩ := h.ran.ran
  obtain ⟨rr, hr⟩ := Handles.run_total v h.ran.hor.ch_pos h.ran.hor.ch_le hp h.ran.mem junk dyn _ hfits hadm
  have hr0 := hr
  rw [Handles.run_snoc, hrun, ok_bind] at hr
  obtain ⟨r, hs, hr⟩ := bind_eq_ok.1 hr
  cases hr
  dsimp only at hs
  refine ⟨r, hs, ?_⟩
  obtain ⟨-, -, c, e1, a1, -⟩ := Handles.run_agrees v h.ran.hor.ch_pos h.ran.hor.ch_le h.ran.hor.ph_int h.ran.mem h.ran.fits hrun
  obtain ⟨-, b1, -, b2⟩ := Handles.step_ok (h' := r.1.1) (m' := r.1.2) (out := r.2) a1 h.ran.hor.ph_int h.ran.mem hf hs
  obtain ⟨k1, k2⟩ := effect_shows b2 he b1.cmds h.shows
  refine ⟨?_, ?_, k1, ?_⟩
  · rw [callsOf_cons, retsOf_cons]
    exact ⟨h.ran.hor, h.ran.mem, hfits, junk, hr0⟩
  · rw [callsOf_cons]; exact hadm
  · intro e hm
    rcases List.mem_cons.1 hm with rfl | hm
    · refine ⟨k1, ?_, ?_⟩
      · rintro v' op' out ⟨⟩ hrep
        exact k2 hrep
      · intro v' x u vs en j r' call' hc
        obtain ⟨⟨⟩, hr'⟩ := Prod.mk.inj (Option.some.inj hc)
        obtain ⟨call2, h2⟩ := k2 (by
          cases en with
          | outputThrows z => cases he
          | _ => rfl)
        rw [h2] at hr'
        cases hr'
        rfl
    · exact h.events e hm

end Mpc
