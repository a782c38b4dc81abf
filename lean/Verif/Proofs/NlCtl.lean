import Verif.Proofs.NlEval
import Verif.Proofs.NlFeas
import Verif.Proofs.NlGuess
import Verif.Spec.NlApi

/-
Every history of API calls leaves the nonlinear controller in a state described by a few values computed from the
history (`NlCtl`). This is a device of the proofs; the properties have their own specifications.
-/
namespace Mpc
open Exec
set_option linter.unusedSectionVars false

variable {d : Dims} {K : Type} [Field K] [LinearOrder K] [IsStrictOrderedRing K]

/-- abstract state of the nonlinear controller -/
structure NlCtl (d : Dims) (K : Type) where
  cfg : NlSpec.Cfg d K
  ti : K
  te : K
  lo : Nat → Ext K
  up : Nat → Ext K
  lim : NlLimits K
  warm : Bool
  obj : Bool
  groups : List (NlGroup K)
  z : Nat → K
  first : Bool
  slack : K
  cmd : Nat → K

namespace NlCtl

/-- entries of the box written by a matrix -/
def writeMat (off n h : Nat) (v : Nat → Nat → Ext K) (old : Nat → Ext K) : Nat → Ext K := fun p =>
  if NlOpt.Addressed off n 0 h p then v ((p - off) % n) ((p - off) / n) else old p

/-- the decision vector after a cold start -/
def cold (d : Dims) (x0 u0 : Nat → K) (z : Nat → K) : Nat → K := fun p =>
  if p < d.ph * d.nx then x0 (p % d.nx)
  else if p < d.ph * d.nx + d.ch * d.nu then u0 ((p - d.ph * d.nx) % d.nu)
  else z p

/-- the decision vector an initial point is made from -/
def start (c : NlCtl d K) (x0 u0 : Nat → K) : Nat → K := if c.first || !c.warm then cold d x0 u0 c.z else c.z

/-- state after construction -/
def fresh (d : Dims) : NlCtl d K where
  cfg := NlSpec.Cfg.fresh d false 0
  ti := 0
  te := 0
  lo := fun p => if p = NlSpec.slackIx d then .fin 0 else .negInf
  up := fun p => if p = NlSpec.slackIx d then .fin 0 else .posInf
  lim := ⟨-1, -1, -1, -1, 0, 100⟩
  warm := false
  obj := false
  groups := []
  z := fun _ => 0
  first := true
  slack := 0
  cmd := fun _ => 0

/-- state after an accepted `optimize` -/
def solved (c : NlCtl d K) (x0 u0 : Nat → K) : NlOutcome K → NlCtl d K
  | .threw => { c with cfg := { c.cfg with x0 := some x0 }, z := c.start x0 u0 }
  | .answered z _ _ true => { c with cfg := { c.cfg with x0 := some x0 }, z := z.get, first := false }
  | .answered z _ _ false =>
    { c with
      cfg := { c.cfg with x0 := some x0 }, z := z.get, first := false, slack := z.get (NlSpec.slackIx d)
      cmd := fun b => c.cfg.inScale b * z.get (NlSpec.inputIx d 0 b) }

/-- state after one more call, given whether it returned false -/
def step (c : NlCtl d K) (refused : Bool) : NlCall d K → NlCtl d K
  | .setDiscretizationSamplingTime ts => { c with cfg := { c.cfg with cont := true, Ts := ts } }
  | .setOptimizerParameters (.nonlinear p) =>
    { c with
      lim := NlOpt.setLimits c.lim p, warm := p.enable_warm_start
      lo := fun v => if v = NlSpec.slackIx d ∧ p.hard_constraints = true then .fin 0 else c.lo v
      up := fun v => if v = NlSpec.slackIx d ∧ p.hard_constraints = true then .fin 0 else c.up v }
  | .setOptimizerParameters .other => c
  | .setInputScale v => { c with cfg := { c.cfg with inScale := v.get } }
  | .setStateScale v => { c with cfg := { c.cfg with stScale := v.get } }
  | .setObjectiveFunction f acc => { c with cfg := { c.cfg with obj := some f }, obj := c.obj || acc }
  | .setStateSpaceFunction F tol acc =>
    { c with
      cfg := { c.cfg with field := some F }
      groups := if acc then c.groups ++ [⟨.dynamics, Vec.const (d.ph * d.nx) tol⟩] else c.groups }
  | .setOutputFunction g => { c with cfg := { c.cfg with out := some g } }
  | .setIneqConFunction F tol acc =>
    { c with
      cfg := { c.cfg with ineq := some F }, ti := tol
      groups := if acc then c.groups ++ [⟨.userIneq, Vec.const d.ineq tol⟩] else c.groups }
  | .setEqConFunction F tol acc =>
    { c with
      cfg := { c.cfg with eq := some F }, te := tol
      groups := if acc then c.groups ++ [⟨.userEq, Vec.const d.eq tol⟩] else c.groups }
  | .setStateBounds mn mx => { c with lo := writeMat 0 d.nx d.ph mn.get c.lo, up := writeMat 0 d.nx d.ph mx.get c.up }
  | .setInputBounds mn mx =>
    { c with
      lo := writeMat (d.ph * d.nx) d.nu d.ch mn.get c.lo, up := writeMat (d.ph * d.nx) d.nu d.ch mx.get c.up }
  | .setOutputBounds _ _ => c
  | .setStateBoundsSlice l u s =>
    if refused then c else
    { c with
      lo := NlOpt.written 0 d.nx (NlOpt.sliceStart s) (NlOpt.sliceStop d.ph s) l.get c.lo
      up := NlOpt.written 0 d.nx (NlOpt.sliceStart s) (NlOpt.sliceStop d.ph s) u.get c.up }
  | .setInputBoundsSlice l u s =>
    if refused then c else
    { c with
      lo := NlOpt.written (d.ph * d.nx) d.nu (NlOpt.sliceStart s) (NlOpt.sliceStop d.ch s) l.get c.lo
      up := NlOpt.written (d.ph * d.nx) d.nu (NlOpt.sliceStart s) (NlOpt.sliceStop d.ch s) u.get c.up }
  | .setOutputBoundsSlice _ _ _ => c
  | .optimize x0 u0 _ out _ => c.solved x0.get u0.get out

end NlCtl

/-- the call returned false -/
def NlOut.refused : NlOut K → Bool
  | .bool false => true
  | _ => false

/-- the controller is in abstract state `c` -/
structure NlMpc.Agrees (m : NlMpc d K) (c : NlCtl d K) : Prop where
  holds : m.s.Holds c.cfg
  ti : c.cfg.ineq.isSome = true → m.s.con.ieqTol = c.ti
  te : c.cfg.eq.isSome = true → m.s.con.eqTol = c.te
  lbs : m.o.lb.size = d.nZ
  ubs : m.o.ub.size = d.nZ
  lb : m.o.lb.get = c.lo
  ub : m.o.ub.get = c.up
  slb : m.o.solverLb = m.o.lb
  sub : m.o.solverUb = m.o.ub
  lim : m.o.limits = c.lim
  warm : m.o.warm = c.warm
  obj : m.o.objective = c.obj
  groups : m.o.groups = c.groups
  zs : m.o.optVector.size = d.nZ
  z : ∀ p, p < d.nZ → m.o.optVector.get p = c.z p
  first : m.o.first = c.first
  slack : m.o.currentSlack = c.slack
  cmds : m.o.result.cmd.size = d.nu
  cmd : ∀ b, b < d.nu → m.o.result.cmd.get b = c.cmd b

/-! ### tolerances are not changed by evaluations -/

namespace Constraints

theorem evaluateIneq_tol (o : Constraints d K) (mp : Mapping K) (M : NlModel d K) (junk : Nat → K) (x : Vec K)
    {r : ConCost K × Constraints d K} (h : o.evaluateIneq mp M junk x = .ok r) :
    r.2.ieqTol = o.ieqTol ∧ r.2.eqTol = o.eqTol := by
  unfold evaluateIneq at h
  dsimp only at h
  obtain ⟨w, -, h⟩ := bind_eq_ok.1 h
  cases hf : o.ieqUser with
  | none =>
    rw [hf] at h
    dsimp only at h
    cases h
    exact ⟨rfl, rfl⟩
  | some f =>
    rw [hf] at h
    dsimp only at h
    obtain ⟨v, -, h⟩ := bind_eq_ok.1 h
    obtain ⟨J, -, h⟩ := bind_eq_ok.1 h
    obtain ⟨G, -, h⟩ := bind_eq_ok.1 h
    obtain ⟨G', -, h⟩ := bind_eq_ok.1 h
    cases h
    exact ⟨rfl, rfl⟩

theorem evaluateEq_tol (o : Constraints d K) (mp : Mapping K) (junk : Nat → K) (x : Vec K)
    {r : ConCost K × Constraints d K} (h : o.evaluateEq mp junk x = .ok r) :
    r.2.ieqTol = o.ieqTol ∧ r.2.eqTol = o.eqTol := by
  unfold evaluateEq at h
  dsimp only at h
  obtain ⟨w, -, h⟩ := bind_eq_ok.1 h
  cases hf : o.eqUser with
  | none =>
    rw [hf] at h
    dsimp only at h
    cases h
    exact ⟨rfl, rfl⟩
  | some f =>
    rw [hf] at h
    dsimp only at h
    obtain ⟨v, -, h⟩ := bind_eq_ok.1 h
    obtain ⟨J, -, h⟩ := bind_eq_ok.1 h
    obtain ⟨G, -, h⟩ := bind_eq_ok.1 h
    obtain ⟨G', -, h⟩ := bind_eq_ok.1 h
    cases h
    exact ⟨rfl, rfl⟩

theorem evaluateStateModelEq_tol (o : Constraints d K) (mp : Mapping K) (M : NlModel d K) (junk : Nat → K)
    (x : Vec K) (g : Bool) {r : ConCost K × Constraints d K} (h : o.evaluateStateModelEq mp M junk x g = .ok r) :
    r.2.ieqTol = o.ieqTol ∧ r.2.eqTol = o.eqTol := by
  unfold evaluateStateModelEq at h
  dsimp only at h
  obtain ⟨w, -, h⟩ := bind_eq_ok.1 h
  obtain ⟨v, -, h⟩ := bind_eq_ok.1 h
  cases h
  exact ⟨rfl, rfl⟩

end Constraints

/-- tolerances after an operation -/
def NlOp.tols (t : K × K) : NlOp d K → K × K
  | .ineqFn _ a => (a, t.2)
  | .eqFn _ a => (t.1, a)
  | _ => t

theorem NlState.exec_tol {s s' : NlState d K} {o : NlOp d K} (h : s.exec o = .ok s') :
    (s'.con.ieqTol, s'.con.eqTol) = o.tols (s.con.ieqTol, s.con.eqTol) := by
  cases o <;> simp only [exec] at h
  case inputScaling v =>
    obtain ⟨mp, -, h⟩ := bind_eq_ok.1 h
    cases h; rfl
  case evalObj z g =>
    obtain ⟨r, hr, h⟩ := bind_eq_ok.1 h
    unfold evalObj at hr
    obtain ⟨q, -, hr⟩ := bind_eq_ok.1 hr
    cases hr; cases h; rfl
  case evalIneq z j =>
    obtain ⟨r, hr, h⟩ := bind_eq_ok.1 h
    unfold evalIneq at hr
    obtain ⟨q, hq, hr⟩ := bind_eq_ok.1 hr
    cases hr; cases h
    obtain ⟨h1, h2⟩ := Constraints.evaluateIneq_tol _ _ _ _ _ hq
    simp only [NlOp.tols, h1, h2]
  case evalEq z j =>
    obtain ⟨r, hr, h⟩ := bind_eq_ok.1 h
    unfold evalEq at hr
    obtain ⟨q, hq, hr⟩ := bind_eq_ok.1 hr
    cases hr; cases h
    obtain ⟨h1, h2⟩ := Constraints.evaluateEq_tol _ _ _ _ hq
    simp only [NlOp.tols, h1, h2]
  case evalDyn z g j =>
    obtain ⟨r, hr, h⟩ := bind_eq_ok.1 h
    unfold evalDyn at hr
    obtain ⟨q, hq, hr⟩ := bind_eq_ok.1 hr
    cases hr; cases h
    obtain ⟨h1, h2⟩ := Constraints.evaluateStateModelEq_tol _ _ _ _ _ _ hq
    simp only [NlOp.tols, h1, h2]
  all_goals (cases h; rfl)

end Mpc
