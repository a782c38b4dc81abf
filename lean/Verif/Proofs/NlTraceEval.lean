import Verif.Proofs.NlTrace

/-
Traces of the evaluations.
-/
namespace Mpc
open Exec
set_option linter.unusedSectionVars false

/-- if `p` succeeds, it has made the calls `l` and its result is in `Q` -/
def Tri {d : Dims} {K α : Type} (F : ∀ c : UserCall d K, c.Ans) (p : Prog d K α) (l : List (UserCall d K)) (Q : α → Prop) : Prop :=
  ∀ a, p.run F = .ok a → p.calls F = l ∧ Q a

section
variable {d : Dims} {K : Type} {α β σ : Type} {F : ∀ c : UserCall d K, c.Ans}

theorem Trc.tri {p : Prog d K α} {l : List (UserCall d K)} {Q : α → Prop} (h : Trc F p l Q) : Tri F p l Q := by
  obtain ⟨a, h1, h2, h3⟩ := h
  intro b hb
  rw [h1] at hb
  cases hb
  exact ⟨h2, h3⟩

theorem Tri.bind {p : Prog d K α} {f : α → Prog d K β} {l l' : List (UserCall d K)} {Q : α → Prop} {R : β → Prop}
    (h : Tri F p l Q) (hf : ∀ a, Q a → Tri F (f a) l' R) : Tri F (p >>= f) (l ++ l') R := by
  intro b hb
  rw [Prog.run_bind] at hb
  obtain ⟨a, ha, hb⟩ := (Exec.bind_eq_ok).1 hb
  obtain ⟨h1, h2⟩ := h a ha
  obtain ⟨k1, k2⟩ := hf a h2 b hb
  refine ⟨?_, k2⟩
  rw [Prog.calls_bind, ha, h1]; dsimp only; rw [k1]

theorem Tri.bindEnd {p : Prog d K α} {f : α → Prog d K β} {l : List (UserCall d K)} {Q : α → Prop} {R : β → Prop}
    (h : Tri F p l Q) (hf : ∀ a, Q a → Tri F (f a) [] R) : Tri F (p >>= f) l R := by
  have := Tri.bind h hf
  rwa [List.append_nil] at this

theorem Tri.lift {e : Exec α} {Q : α → Prop} (h : ∀ a, e = .ok a → Q a) : Tri F (liftM e : Prog d K α) [] Q :=
  fun a ha => ⟨rfl, h a ha⟩

theorem Tri.pure {a : α} {Q : α → Prop} (h : Q a) : Tri F (Pure.pure a : Prog d K α) [] Q := (Trc.pure h).tri

/-- a step without calls whose result does not matter for the trace -/
theorem Tri.skip {e : Exec α} {f : α → Prog d K β} {l : List (UserCall d K)} {R : β → Prop} (hf : ∀ a, Tri F (f a) l R) :
    Tri F (liftM e >>= f) l R := Tri.bind (l := []) (Tri.lift fun _ _ => trivial) (fun a _ => hf a)

theorem Tri.mono {p : Prog d K α} {l l' : List (UserCall d K)} {Q R : α → Prop} (h : Tri F p l Q) (hl : l = l') (hq : ∀ a, Q a → R a) :
    Tri F p l' R := by
  intro a ha
  obtain ⟨h1, h2⟩ := h a ha
  exact ⟨h1.trans hl, hq a h2⟩

theorem forFrom_tri (n : Nat) (body : Nat → σ → Prog d K σ) (tr : Nat → List (UserCall d K)) :
    ∀ lo s, (∀ i t, lo ≤ i → i < lo + n → Tri F (body i t) (tr i) (fun _ => True)) →
      Tri F (Prog.forFrom lo n s body) ((List.range' lo n).flatMap tr) (fun _ => True) := by
  induction n with
  | zero => intro lo s _; exact Tri.pure trivial
  | succ n ih =>
    intro lo s hs
    rw [List.range'_succ, List.flatMap_cons]
    refine Tri.bind (hs lo s (Nat.le_refl _) (by omega)) ?_
    intro t _
    exact ih (lo + 1) t fun i t h1 h2 => hs i t (by omega) (by omega)

theorem forRange_tri (n : Nat) (s : σ) (body : Nat → σ → Prog d K σ) (tr : Nat → List (UserCall d K))
    (hs : ∀ i t, i < n → Tri F (body i t) (tr i) (fun _ => True)) :
    Tri F (Prog.forRange n s body) ((List.range n).flatMap tr) (fun _ => True) := by
  have := forFrom_tri n body tr 0 s fun i t _ h2 => hs i t (by omega)
  rwa [← List.range_eq_range'] at this

variable [Field K] [LinearOrder K] [IsStrictOrderedRing K]

namespace Constraints

theorem rowV_viewF (X : Mat K) (r c : Nat) (k : Fin r) : (rowV X k).viewF c = X.viewF r c k := rfl

theorem stepDiscreteP_tri (mp : Mapping K) (M : NlModel d K) (hf : M.vectorField.isSome) (X U : Mat K) (hp : d.ph < 2 ^ 31)
    (hX : X.Is (d.ph + 1) d.nx) (hU : U.Is (d.ph + 1) d.nu) (g : Bool) (k : Fin d.ph) (s) :
    Tri F (stepDiscreteP mp M X U g k s)
      ([UserCall.state (X.viewF (d.ph + 1) d.nx k.castSucc) (U.viewF (d.ph + 1) d.nu k.castSucc) k] ++
      if g then NlSpec.modelProbes (X.viewF (d.ph + 1) d.nx k.castSucc) (U.viewF (d.ph + 1) d.nu k.castSucc) k else [])
      (fun _ => True) := by
  obtain ⟨ic, ceq, Jx, Jmv⟩ := s
  have hk := k.2
  unfold stepDiscreteP
  dsimp only
  rw [rowV_ok (by rw [hU.1]; omega), Prog.lift_ok_bind, rowV_ok (by rw [hX.1]; omega), Prog.lift_ok_bind,
    toUnsigned_of_lt (by omega)]
  refine Tri.bind (M.callStateP_trc hf (rowV X k) (rowV U k) k hX.2 hU.2).tri fun xk1 _ => ?_
  refine Tri.skip fun a => Tri.skip fun b => Tri.skip fun c => Tri.skip fun e => Tri.skip fun v => Tri.skip fun w => ?_
  cases g with
  | false => exact Tri.pure trivial
  | true =>
    simp only [if_true]
    refine Tri.bindEnd (computeStateEqJacobianP_trc M hf (rowV X k) (rowV U k) k hX.2 hU.2).tri fun AB _ => ?_
    exact Tri.skip fun _ => Tri.skip fun _ => Tri.skip fun _ => Tri.skip fun _ => Tri.skip fun _ => Tri.skip fun _ => Tri.pure trivial

theorem stepContinuousP_tri (mp : Mapping K) (M : NlModel d K) (hf : M.vectorField.isSome) (X U : Mat K) (hp : d.ph < 2 ^ 31)
    (hX : X.Is (d.ph + 1) d.nx) (hU : U.Is (d.ph + 1) d.nu) (g : Bool) (k : Fin d.ph) (s) :
    Tri F (stepContinuousP mp M X U g k s)
      ([UserCall.state (X.viewF (d.ph + 1) d.nx k.castSucc) (U.viewF (d.ph + 1) d.nu k.castSucc) k] ++
      ([UserCall.state (X.viewF (d.ph + 1) d.nx k.succ) (U.viewF (d.ph + 1) d.nu k.castSucc) k] ++
      if g then NlSpec.modelProbes (X.viewF (d.ph + 1) d.nx k.castSucc) (U.viewF (d.ph + 1) d.nu k.castSucc) k ++
        NlSpec.modelProbes (X.viewF (d.ph + 1) d.nx k.succ) (U.viewF (d.ph + 1) d.nu k.castSucc) k else []))
      (fun _ => True) := by
  obtain ⟨ic, ceq, Jx, Jmv⟩ := s
  have hk := k.2
  unfold stepContinuousP
  dsimp only
  rw [rowV_ok (by rw [hU.1]; omega), Prog.lift_ok_bind, rowV_ok (by rw [hX.1]; omega), Prog.lift_ok_bind,
    rowV_ok (by rw [hX.1]; omega), Prog.lift_ok_bind, toUnsigned_of_lt (by omega)]
  refine Tri.bind (M.callStateP_trc hf (rowV X k) (rowV U k) k hX.2 hU.2).tri fun fk _ => ?_
  refine Tri.bind (M.callStateP_trc hf (rowV X (k + 1)) (rowV U k) k hX.2 hU.2).tri fun fk1 _ => ?_
  refine Tri.skip fun a => Tri.skip fun b => Tri.skip fun c => Tri.skip fun e => Tri.skip fun v => Tri.skip fun w => Tri.skip fun w' => ?_
  cases g with
  | false => exact Tri.pure trivial
  | true =>
    simp only [if_true]
    refine Tri.bind (computeStateEqJacobianP_trc M hf (rowV X k) (rowV U k) k hX.2 hU.2).tri fun AB _ => ?_
    refine Tri.bindEnd (computeStateEqJacobianP_trc M hf (rowV X (k + 1)) (rowV U k) k hX.2 hU.2).tri fun AB _ => ?_
    exact Tri.skip fun _ => Tri.skip fun _ => Tri.skip fun _ => Tri.skip fun _ => Tri.skip fun _ => Tri.skip fun _ => Tri.skip fun _ =>
      Tri.skip fun _ => Tri.pure trivial

theorem getStateEqConstraintsP_tri (mp : Mapping K) (M : NlModel d K) (hf : M.vectorField.isSome) (junk : Nat → K) (X U : Mat K)
    (hp : d.ph < 2 ^ 31) (hX : X.Is (d.ph + 1) d.nx) (hU : U.Is (d.ph + 1) d.nu) (ceq : Vec K) (Jceq : Mat K) (g : Bool) :
    Tri F (getStateEqConstraintsP mp M junk X U ceq Jceq g)
      (NlSpec.modelTrace M.continuous (X.viewF (d.ph + 1) d.nx) (U.viewF (d.ph + 1) d.nu) g) (fun _ => True) := by
  unfold getStateEqConstraintsP NlSpec.modelTrace
  dsimp only
  refine Tri.bindEnd ((forRange_tri d.ph _ _ (fun i => if h : i < d.ph then
      ((UserCall.state (X.viewF (d.ph + 1) d.nx (Fin.castSucc ⟨i, h⟩)) (U.viewF (d.ph + 1) d.nu (Fin.castSucc ⟨i, h⟩)) i ::
        if M.continuous then [UserCall.state (X.viewF (d.ph + 1) d.nx (Fin.succ ⟨i, h⟩)) (U.viewF (d.ph + 1) d.nu (Fin.castSucc ⟨i, h⟩)) i]
        else []) ++ if g then NlSpec.modelProbes (X.viewF (d.ph + 1) d.nx (Fin.castSucc ⟨i, h⟩)) (U.viewF (d.ph + 1) d.nu (Fin.castSucc ⟨i, h⟩)) i ++
          if M.continuous then
            NlSpec.modelProbes (X.viewF (d.ph + 1) d.nx (Fin.succ ⟨i, h⟩)) (U.viewF (d.ph + 1) d.nu (Fin.castSucc ⟨i, h⟩)) i else []
        else []) else []) ?_).mono (flatMap_range_to fun k => by rw [dif_pos k.2]) fun _ h => h) ?_
  · intro i t hi
    rw [dif_pos hi]
    cases hc : M.continuous with
    | false =>
      simp only [Bool.false_eq_true, if_false, List.append_nil]
      exact stepDiscreteP_tri mp M hf X U hp hX hU g ⟨i, hi⟩ t
    | true =>
      simp only [if_true]
      exact stepContinuousP_tri mp M hf X U hp hX hU g ⟨i, hi⟩ t
  · intro r _
    cases g with
    | false => exact Tri.pure trivial
    | true => exact Tri.skip fun _ => Tri.pure trivial

end Constraints

namespace NlState
variable {s : NlState d K} {c : NlSpec.Cfg d K}

/-- what the evaluations see of the decision vector -/
theorem Holds.unwrapObj (h : s.Holds c) (z : Vec K) (hz : z.size = d.nZ) :
    Post (s.mp.unwrapVector z s.obj.x0 s.obj.Xmat s.obj.Umat) (fun w => w.1.Is (d.ph + 1) d.nx ∧ w.2.1.Is (d.ph + 1) d.nu ∧
      w.1.viewF (d.ph + 1) d.nx = NlSpec.codeStates d c.stScale s.obj.x0.get z.get ∧
      w.2.1.viewF (d.ph + 1) d.nu = NlSpec.inputs d c.inScale z.get ∧ w.2.2 = z.get (NlSpec.slackIx d)) := by
  have hd := h.dims
  have ho := h.osz
  refine (Mapping.unwrapVector_post s.mp h.good z s.obj.x0 s.obj.Xmat s.obj.Umat (by rw [hd]; exact hz) (by rw [hd]; exact ho.x0)
    (by rw [hd]; exact ho.X.1) (by rw [hd]; exact ho.X.2) (by rw [hd]; exact ho.U.1) (by rw [hd]; exact ho.U.2)).mono ?_
  rintro ⟨X, U, e⟩ hw
  have hXv := Objective.viewF_states hw
  have hUv := Objective.viewF_inputs hw
  have h1 := hw.xr; have h2 := hw.xc; have h3 := hw.ur; have h4 := hw.uc; have h5 := hw.e
  rw [hd] at h1 h2 h3 h4 h5 hXv hUv
  rw [h.stS] at hXv
  rw [h.inS] at hUv
  exact ⟨⟨h1, h2⟩, ⟨h3, h4⟩, hXv, hUv, h5⟩

theorem Holds.unwrapCon (h : s.Holds c) (z : Vec K) (hz : z.size = d.nZ) :
    Post (s.mp.unwrapVector z s.con.x0 s.con.Xmat s.con.Umat) (fun w => w.1.Is (d.ph + 1) d.nx ∧ w.2.1.Is (d.ph + 1) d.nu ∧
      w.1.viewF (d.ph + 1) d.nx = NlSpec.codeStates d c.stScale s.con.x0.get z.get ∧
      w.2.1.viewF (d.ph + 1) d.nu = NlSpec.inputs d c.inScale z.get ∧ w.2.2 = z.get (NlSpec.slackIx d)) := by
  have hd := h.dims
  have ho := h.csz
  refine (Mapping.unwrapVector_post s.mp h.good z s.con.x0 s.con.Xmat s.con.Umat (by rw [hd]; exact hz) (by rw [hd]; exact ho.x0)
    (by rw [hd]; exact ho.X.1) (by rw [hd]; exact ho.X.2) (by rw [hd]; exact ho.U.1) (by rw [hd]; exact ho.U.2)).mono ?_
  rintro ⟨X, U, e⟩ hw
  have hXv := Objective.viewF_states hw
  have hUv := Objective.viewF_inputs hw
  have h1 := hw.xr; have h2 := hw.xc; have h3 := hw.ur; have h4 := hw.uc; have h5 := hw.e
  rw [hd] at h1 h2 h3 h4 h5 hXv hUv
  rw [h.stS] at hXv
  rw [h.inS] at hUv
  exact ⟨⟨h1, h2⟩, ⟨h3, h4⟩, hXv, hUv, h5⟩

theorem evalObjP_calls (h : s.Holds c) (hp : d.ph < 2 ^ 31) {f : ObjFn d K} (hf : c.obj = some f) (z : Vec K) (hz : z.size = d.nZ)
    (g : Bool) : (s.evalObjP z g).calls F = NlSpec.objectiveTrace F c.out.isSome (NlSpec.codeStates d c.stScale s.obj.x0.get z.get)
      (NlSpec.inputs d c.inScale z.get) (z.get (NlSpec.slackIx d)) g := by
  unfold evalObjP
  rw [Prog.calls_bind_nil _ _ (fun _ => rfl)]
  unfold Objective.evaluateP
  obtain ⟨⟨X, U, e⟩, hw, hX, hU, hXv, hUv, he⟩ := h.unwrapObj z hz
  dsimp only at hX hU hXv hUv he
  rw [hw, Prog.lift_ok_bind]
  dsimp only
  rw [h.obj, hf]
  have t1 := Objective.callObjP_trc (F := F) f s.M X U e hp hX hU
  obtain ⟨v, r1, r2, -⟩ := t1
  rw [Prog.calls_bind, r1, r2]
  dsimp only
  unfold NlSpec.objectiveTrace
  rw [hXv, hUv, h.out, he]
  congr 1
  cases g with
  | false => rfl
  | true =>
    simp only [if_true]
    obtain ⟨J, r3, r4, -⟩ := Objective.computeJacobianP_trc (F := F) f s.M X U v e hp (by have := h.pos; omega) hX hU
    rw [Prog.calls_bind_nil _ _ (fun _ => rfl)]
    rw [he] at r4
    rw [r4, hXv, hUv, h.out]

theorem evalIneqP_calls (h : s.Holds c) (hp : d.ph < 2 ^ 31) (hf : c.ineq.isSome) (z : Vec K) (hz : z.size = d.nZ) (junk : Nat → K) :
    (s.evalIneqP z junk).calls F = NlSpec.ineqTrace F c.out.isSome (NlSpec.codeStates d c.stScale s.con.x0.get z.get)
      (NlSpec.inputs d c.inScale z.get) (z.get (NlSpec.slackIx d)) := by
  unfold evalIneqP
  rw [Prog.calls_bind_nil _ _ (fun _ => rfl)]
  unfold Constraints.evaluateIneqP
  obtain ⟨⟨X, U, e⟩, hw, hX, hU, hXv, hUv, he⟩ := h.unwrapCon z hz
  dsimp only at hX hU hXv hUv he
  rw [hw, Prog.lift_ok_bind]
  have hi := h.ineq
  cases hF : c.ineq with
  | none => rw [hF] at hf; cases hf
  | some G =>
    rw [hF] at hi
    dsimp only
    rw [hi]
    dsimp only [Option.map]
    obtain ⟨v, r1, r2, -⟩ := Constraints.callIneqP_trc (F := F) s.M X U e hp hX hU
    obtain ⟨J, r3, r4, -⟩ := Constraints.computeIneqJacobianP_trc (F := F) s.M X U e hp hX hU
    rw [Prog.calls_bind, r1, r2]
    dsimp only
    rw [Prog.calls_bind_nil _ _ (fun _ => Prog.calls_lift_bind _ _ fun _ => Prog.calls_lift_bind _ _ fun _ => rfl), r4]
    unfold NlSpec.ineqTrace
    rw [hXv, hUv, h.out, he, List.append_assoc, List.append_assoc, List.append_assoc]

theorem evalIneqP_none (h : s.Holds c) (hf : c.ineq = none) (z : Vec K) (junk : Nat → K) : (s.evalIneqP z junk).calls F = [] := by
  unfold evalIneqP Constraints.evaluateIneqP
  rw [Prog.calls_bind_nil _ _ (fun _ => rfl)]
  refine Prog.calls_lift_bind _ _ fun w => ?_
  have hi := h.ineq
  rw [hf] at hi
  dsimp only
  rw [hi]
  rfl

theorem evalEqP_calls (h : s.Holds c) (hf : c.eq.isSome) (z : Vec K) (hz : z.size = d.nZ) (junk : Nat → K) :
    (s.evalEqP z junk).calls F = NlSpec.eqTrace (NlSpec.codeStates d c.stScale s.con.x0.get z.get) (NlSpec.inputs d c.inScale z.get) := by
  unfold evalEqP
  rw [Prog.calls_bind_nil _ _ (fun _ => rfl)]
  unfold Constraints.evaluateEqP
  obtain ⟨⟨X, U, e⟩, hw, hX, hU, hXv, hUv, he⟩ := h.unwrapCon z hz
  dsimp only at hX hU hXv hUv he
  rw [hw, Prog.lift_ok_bind]
  have hi := h.eq
  cases hF : c.eq with
  | none => rw [hF] at hf; cases hf
  | some G =>
    rw [hF] at hi
    dsimp only
    rw [hi]
    dsimp only [Option.map]
    obtain ⟨v, r1, r2, -⟩ := Constraints.callEqP_trc (F := F) X U hX hU
    obtain ⟨J, r3, r4, -⟩ := Constraints.computeEqJacobianP_trc (F := F) X U (by have := h.pos; omega) hX hU
    rw [Prog.calls_bind, r1, r2]
    dsimp only
    rw [Prog.calls_bind_nil _ _ (fun _ => Prog.calls_lift_bind _ _ fun _ => Prog.calls_lift_bind _ _ fun _ => rfl), r4]
    unfold NlSpec.eqTrace
    rw [hXv, hUv, List.append_assoc, List.append_assoc, List.append_assoc]

theorem evalEqP_none (h : s.Holds c) (hf : c.eq = none) (z : Vec K) (junk : Nat → K) : (s.evalEqP z junk).calls F = [] := by
  unfold evalEqP Constraints.evaluateEqP
  rw [Prog.calls_bind_nil _ _ (fun _ => rfl)]
  refine Prog.calls_lift_bind _ _ fun w => ?_
  have hi := h.eq
  rw [hf] at hi
  dsimp only
  rw [hi]
  rfl

theorem evalDynP_calls (h : s.Holds c) (hA : s.Answers F) (hp : d.ph < 2 ^ 31) {G : FVec d.nx K → FVec d.nu K → Nat → FVec d.nx K}
    (hf : c.field = some G) (z : Vec K) (hz : z.size = d.nZ) (g : Bool) (junk : Nat → K) :
    (s.evalDynP z g junk).calls F = NlSpec.modelTrace c.cont (NlSpec.codeStates d c.stScale s.con.x0.get z.get)
      (NlSpec.inputs d c.inScale z.get) g := by
  obtain ⟨r, hr, -⟩ := evalDyn_post h hp hf z hz g junk
  rw [← evalDynP_run hA] at hr
  unfold evalDynP at hr ⊢
  rw [Prog.calls_bind_nil _ _ (fun _ => rfl)]
  rw [Prog.run_bind] at hr
  obtain ⟨q, hq, -⟩ := (Exec.bind_eq_ok).1 hr
  unfold Constraints.evaluateStateModelEqP at hq ⊢
  obtain ⟨⟨X, U, e⟩, hw, hX, hU, hXv, hUv, he⟩ := h.unwrapCon z hz
  dsimp only at hX hU hXv hUv he
  rw [hw, Prog.lift_ok_bind] at hq ⊢
  dsimp only at hq ⊢
  rw [Prog.calls_bind_nil _ _ (fun _ => rfl)]
  rw [Prog.run_bind] at hq
  obtain ⟨w, hw', -⟩ := (Exec.bind_eq_ok).1 hq
  have hfs : s.M.vectorField.isSome := by rw [h.field, hf]; rfl
  have := (Constraints.getStateEqConstraintsP_tri (F := F) s.mp s.M hfs junk X U hp hX hU s.con.ceq s.con.Jceq g w hw').1
  rw [this, hXv, hUv, h.cont]

end NlState
end
end Mpc
