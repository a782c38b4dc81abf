import Verif.Proofs.LinRun

/-
The controller between two API calls, and its refinement of the register file along any history.
-/
namespace Mpc
open Exec
set_option linter.unusedSectionVars false

theorem require_bind_ok {α : Type} {c : Prop} [Decidable c] {f : Fault} {k : Unit → Exec α} {r : Exec α} (h : c)
    (hr : k () = r) : (require c f >>= k) = r := by
  rw [require_ok h]; exact hr

theorem require_bind_fail {α : Type} {c : Prop} [Decidable c] {f : Fault} {k : Unit → Exec α} (h : ¬ c) :
    (require c f >>= k) = .error f := by
  rw [require_fail h]; rfl

namespace LOpt
variable {K : Type} [Zero K] [One K] [Add K] [Mul K] [Neg K] [Div K] [NatCast K] [ExactOps K] [DecidableEq K]

/-- If OSQP rejects the problem, `run` uses an unset or released workspace. -/
theorem run_rejected {d : Dims} (hph : 0 < d.ph) {o : LOpt K} {b : Builder K} {c : Spec.LinConfig K} (ho : Good d o c)
    (hb : b.Shaped) (hbd : b.d = d) {x0 u0 : Vec K} (hx0 : x0.size = d.nx) (hu0 : u0.size = d.nu) :
    o.run b x0 u0 .rejected = .error .danglingUse := by
  subst hbd
  unfold run
  obtain ⟨b', hb', _⟩ := b.get_post hb ⟨hx0, hu0, ho.ySize, ho.uSize, ho.duSize, ho.dSize⟩ hph
  rw [hb']
  simp only [ok_bind]
  rcases hgs : getSparse b'.P b'.A with ⟨P, A⟩
  simp only [initData, ne_eq, not_true_eq_false, decide_false]
  obtain ⟨cP, heP, rP, rfl, hcP⟩ := createOsqp_post P o.junk o.junk (fun k => b'.uninit k 3)
  obtain ⟨cA, heA, rA, rfl, hcA⟩ := createOsqp_post A o.junk o.junk (fun k => b'.uninit k 4)
  rw [heP]
  simp only [ok_bind]
  rw [heA]
  simp only [ok_bind]
  rcases ho.idle with ⟨h, _, _⟩ | ⟨h, _, _⟩
  · refine require_bind_ok (by show ¬ o.work = .freed; rw [h]; decide) ?_
    refine require_bind_ok (.inl (by rintro ⟨_, h2⟩; change o.work = .live at h2; rw [h] at h2; cases h2)) ?_
    exact require_bind_fail (by show ¬ o.work = .live; rw [h]; decide)
  · exact require_bind_fail (by show ¬ ¬ o.work = .freed; rw [h]; decide)

/-- Warm-start vectors which are too short are read out of bounds. -/
theorem run_warm_short {d : Dims} (hph : 0 < d.ph) {o : LOpt K} {b : Builder K} {c : Spec.LinConfig K} (ho : Good d o c)
    (hb : b.Shaped) (hbd : b.d = d) {x0 u0 : Vec K} (hx0 : x0.size = d.nx) (hu0 : u0.size = d.nu)
    {status : Int} {obj : K} {sol : Option ((Nat → K) × (Nat → K))} (hw : ¬ WarmFits d o) :
    o.run b x0 u0 (.answered status obj sol) = .error .outOfBounds := by
  subst hbd
  unfold run
  obtain ⟨b', hb', hg⟩ := b.get_post hb ⟨hx0, hu0, ho.ySize, ho.uSize, ho.duSize, ho.dSize⟩ hph
  rw [hb']
  simp only [ok_bind]
  have hbd' : b'.d = b.d := hg.same.d
  have hsh := hg.shaped
  have hPr : (getSparse b'.P b'.A).1.rows = b.d.nV := by
    have := hsh.P.1; rw [hbd'] at this; exact this
  have hAr : (getSparse b'.P b'.A).2.rows = b.d.nC := by
    have := hsh.A.1; rw [hbd'] at this; exact this
  rcases hgs : getSparse b'.P b'.A with ⟨P, A⟩
  rw [hgs] at hPr hAr
  simp only at hPr hAr
  simp only [initData, ne_eq, not_true_eq_false, decide_false, hPr, hAr]
  obtain ⟨cP, heP, rP, rfl, hcP⟩ := createOsqp_post P o.junk o.junk (fun k => b'.uninit k 3)
  obtain ⟨cA, heA, rA, rfl, hcA⟩ := createOsqp_post A o.junk o.junk (fun k => b'.uninit k 4)
  rw [heP]
  simp only [ok_bind]
  rw [heA]
  simp only [ok_bind]
  refine require_bind_ok (by decide) ?_
  have hu : (o.params.enable_warm_start = true ∧ 0 < o.prevX.size ∧ 0 < o.prevY.size) →
      (o.params.toSettings.warm_start ≠ 0 ∧ 0 < o.prevX.size ∧ 0 < o.prevY.size) := by
    rintro ⟨h1, h2⟩
    refine ⟨?_, h2⟩
    simp only [LParams.toSettings, h1]; decide
  unfold WarmFits at hw
  rw [Classical.not_imp] at hw
  refine require_bind_fail ?_
  rintro (h | h)
  · exact h ⟨hu hw.1, trivial⟩
  · exact hw.2 h

/-- What a run that ends normally looks like. -/
theorem run_ok_cases {d : Dims} (hph : 0 < d.ph) {o : LOpt K} {b : Builder K} {c : Spec.LinConfig K} (ho : Good d o c)
    (hb : b.Shaped) (hbd : b.d = d) {x0 u0 : Vec K} (hx0 : x0.size = d.nx) (hu0 : u0.size = d.nu)
    {oc : OsqpOutcome K} {r} (h : o.run b x0 u0 oc = .ok r) :
    (∃ status obj sol, oc = .answered status obj sol) ∧ WarmFits d o := by
  cases oc with
  | rejected => rw [run_rejected hph ho hb hbd hx0 hu0] at h; cases h
  | answered status obj sol =>
    refine ⟨⟨_, _, _, rfl⟩, ?_⟩
    by_contra hw
    rw [run_warm_short hph ho hb hbd hx0 hu0 hw] at h
    cases h

/-- The references, sequences' sizes and pointers after a run. -/
theorem run_good {d : Dims} (hph : 0 < d.ph) {o : LOpt K} {b : Builder K} {c : Spec.LinConfig K} (ho : Good d o c)
    (hb : b.Shaped) (hbd : b.d = d) {x0 u0 : Vec K} (hx0 : x0.size = d.nx) (hu0 : u0.size = d.nu)
    {status : Int} {obj : K} {sol : Option ((Nat → K) × (Nat → K))} (hw : WarmFits d o)
    {r} (h : o.run b x0 u0 (.answered status obj sol) = .ok r) : Good d r.1 c := by
  have := (run_post hph ho hb hbd hx0 hu0 (status := status) (obj := obj) (sol := sol) hw).of_eq h
  obtain ⟨_, _, h3⟩ := this
  obtain ⟨a1, a2, a3, a4, a5, a6, a7, a8, a9, a10, a11, a12, a13, a14, a15⟩ := ho
  rcases sol with _ | ⟨x, y⟩
  · simp only at h3
    rw [h3]
    exact ⟨a1, a2, a3, a4, a5, a6, a7, a8, a9, ⟨rfl, rfl⟩, ⟨rfl, rfl⟩, ⟨rfl, rfl⟩, a13, .inr ⟨rfl, rfl, rfl⟩, a15⟩
  · obtain ⟨S, U, Y, hs, h3⟩ := h3
    rw [h3]
    exact ⟨a1, a2, a3, a4, a5, a6, a7, a8, a9, hs.sizeS, hs.sizeU, hs.sizeY, rfl, .inr ⟨rfl, rfl, rfl⟩, a15⟩

theorem setReferences_good {d : Dims} {o : LOpt K} {c : Spec.LinConfig K} (ho : Good d o c) {Y U D : Mat K}
    {y u du : Nat → Nat → K}
    (hY : (Y.rows = d.ny ∧ Y.cols = d.ph) ∧ ∀ a k, a < d.ny → k < d.ph → Y.get a k = y k a)
    (hU : (U.rows = d.nu ∧ U.cols = d.ph) ∧ ∀ a k, a < d.nu → k < d.ph → U.get a k = u k a)
    (hD : (D.rows = d.nu ∧ D.cols = d.ph) ∧ ∀ a k, a < d.nu → k < d.ph → D.get a k = du k a) :
    Good d { o with outSysRef := Y, cmdSysRef := U, deltaCmdSysRef := D }
      { c with yRef := y, uRef := u, duRef := du } := by
  obtain ⟨a1, a2, a3, a4, a5, a6, a7, a8, a9, a10, a11, a12, a13, a14, a15⟩ := ho
  exact ⟨a1, hY.1, hU.1, hD.1, a5, hY.2, hU.2, hD.2, a9, a10, a11, a12, a13, a14, a15⟩

theorem setExogenous_good {d : Dims} {o : LOpt K} {c : Spec.LinConfig K} (ho : Good d o c) {M : Mat K}
    {v : Nat → Nat → K}
    (hM : (M.rows = d.ndu ∧ M.cols = d.ph) ∧ ∀ a k, a < d.ndu → k < d.ph → M.get a k = v k a) :
    Good d { o with extInputMeas := M } { c with dist := v } := by
  obtain ⟨a1, a2, a3, a4, a5, a6, a7, a8, a9, a10, a11, a12, a13, a14, a15⟩ := ho
  exact ⟨a1, a2, a3, a4, hM.1, a6, a7, a8, hM.2, a10, a11, a12, a13, a14, a15⟩

theorem setReferencesAt_post {d : Dims} {o : LOpt K} {c : Spec.LinConfig K} (ho : Good d o c) {y u du : Vec K} {i : Nat}
    (hi : i < d.ph) (hy : y.size = d.ny) (hu : u.size = d.nu) (hdu : du.size = d.nu) :
    Post (o.setReferencesAt i y u du) (fun r => r.2 = true ∧ Good d r.1
      { c with yRef := Spec.upd (· == i) (fun _ => y.get) c.yRef
               uRef := Spec.upd (· == i) (fun _ => u.get) c.uRef
               duRef := Spec.upd (· == i) (fun _ => du.get) c.duRef }) := by
  have h1 := ho.ySize
  have h2 := ho.uSize
  have h3 := ho.duSize
  unfold setReferencesAt
  rw [Mat.setCol_ok (by omega) (by omega)]
  simp only [ok_bind]
  rw [Mat.setCol_ok (by omega) (by omega)]
  simp only [ok_bind]
  rw [Mat.setCol_ok (by omega) (by omega)]
  simp only [ok_bind]
  refine post_pure ⟨rfl, setReferences_good ho ⟨h1, ?_⟩ ⟨h2, ?_⟩ ⟨h3, ?_⟩⟩
  · intro a k ha hk
    simp only [Mat.setColRaw_get, Spec.upd, beq_iff_eq, ho.yRef a k ha hk]
    split_ifs <;> rfl
  · intro a k ha hk
    simp only [Mat.setColRaw_get, Spec.upd, beq_iff_eq, ho.uRef a k ha hk]
    split_ifs <;> rfl
  · intro a k ha hk
    simp only [Mat.setColRaw_get, Spec.upd, beq_iff_eq, ho.duRef a k ha hk]
    split_ifs <;> rfl

theorem setExogenousInputsAt_post {d : Dims} {o : LOpt K} {c : Spec.LinConfig K} (ho : Good d o c) {v : Vec K} {i : Nat}
    (hi : i < d.ph) (hv : v.size = d.ndu) :
    Post (o.setExogenousInputsAt i v) (fun r => r.2 = true ∧ Good d r.1
      { c with dist := Spec.upd (· == i) (fun _ => v.get) c.dist }) := by
  have h1 := ho.dSize
  unfold setExogenousInputsAt
  rw [Mat.setCol_ok (by omega) (by omega)]
  simp only [ok_bind]
  refine post_pure ⟨rfl, setExogenous_good ho ⟨h1, ?_⟩⟩
  intro a k ha hk
  simp only [Mat.setColRaw_get, Spec.upd, beq_iff_eq, ho.dist a k ha hk]
  split_ifs <;> rfl

theorem setExogenousInputsAt_oob {d : Dims} {o : LOpt K} {c : Spec.LinConfig K} (ho : Good d o c) {v : Vec K} {i : Nat}
    (hi : d.ph ≤ i) : o.setExogenousInputsAt i v = .error .outOfBounds := by
  have h1 := ho.dSize
  unfold setExogenousInputsAt
  rw [Mat.setCol_oob (by omega)]
  rfl

end LOpt

/-- `Good` of the builder does not look at references and disturbances. -/
theorem Builder.Good.refs {K : Type} [Zero K] [One K] [Add K] [Mul K] [Neg K] [ExactOps K] {d : Dims} {b : Builder K} {c : Spec.LinConfig K} (h : Builder.Good d b c)
    (y u du v : Nat → Nat → K) :
    Builder.Good d b { c with yRef := y, uRef := u, duRef := du, dist := v } :=
  ⟨h.dims, h.shaped, h.derived, ⟨h.repr.Axx, h.repr.Axu, h.repr.Aux, h.repr.Auu, h.repr.Bx, h.repr.Bu, h.repr.Cyx,
    h.repr.Cyu, h.repr.Cux, h.repr.Cuu, h.repr.Bvx, h.repr.Bvu, h.repr.Dvy, h.repr.Dvu, h.repr.wY, h.repr.wU,
    h.repr.wDu, h.repr.xMin, h.repr.xMax, h.repr.uMin, h.repr.uMax, h.repr.yMin, h.repr.yMax, h.repr.sMin,
    h.repr.sMax, h.repr.sMul⟩⟩

/-- `Good` of the optimizer only looks at references and disturbances. -/
theorem LOpt.Good.config {K : Type} [Zero K] [One K] [Add K] [Mul K] [Neg K] [Div K] [NatCast K] [ExactOps K] {d : Dims} {o : LOpt K} {c c' : Spec.LinConfig K} (h : LOpt.Good d o c)
    (h1 : c'.yRef = c.yRef) (h2 : c'.uRef = c.uRef) (h3 : c'.duRef = c.duRef) (h4 : c'.dist = c.dist) :
    LOpt.Good d o c' := by
  obtain ⟨a1, a2, a3, a4, a5, a6, a7, a8, a9, a10, a11, a12, a13, a14, a15⟩ := h
  exact ⟨a1, a2, a3, a4, a5, by rw [h1]; exact a6, by rw [h2]; exact a7, by rw [h3]; exact a8,
    by rw [h4]; exact a9, a10, a11, a12, a13, a14, a15⟩

namespace LMpc
variable {K : Type} [Zero K] [One K] [Add K] [Mul K] [Neg K] [Div K] [NatCast K] [ExactOps K] [DecidableEq K]

/-- Everything that holds of a linear controller between two API calls, when its configuration is `c`. -/
structure Inv (d : Dims) (m : LMpc K) (c : Spec.LinConfig K) : Prop where
  dims : m.d = d
  builder : Builder.Good d m.b c
  opt : LOpt.Good d m.o c

theorem new_inv {d : Dims} (hd : d.Valid) (uninit : Nat → Nat → K) (junk : Nat → Nat) :
    Post (new d uninit junk) (fun m => Inv d m Spec.LinConfig.default) := by
  unfold new
  refine Post.bind (Builder.onInit_post hd.ph_pos uninit) fun b hb => ?_
  exact post_pure ⟨rfl, hb, LOpt.onInit_good d junk⟩

/-- A builder call, seen from the controller. -/
theorem onBuilder_post {d : Dims} {m : LMpc K} {c c' : Spec.LinConfig K} (hm : Inv d m c)
    (h1 : c'.yRef = c.yRef) (h2 : c'.uRef = c.uRef) (h3 : c'.duRef = c.duRef) (h4 : c'.dist = c.dist)
    {f : Builder K → Exec (Builder K × Bool)} (hf : Post (f m.b) (fun r => r.2 = true ∧ Builder.Good d r.1 c')) :
    Post (m.onBuilder f) (fun r => r.2 = .bool true ∧ Inv d r.1 c') := by
  unfold onBuilder
  refine Post.bind hf ?_
  rintro ⟨b, t⟩ ⟨ht, hb⟩
  simp only at ht hb ⊢
  subst ht
  exact post_pure ⟨rfl, hm.dims, hb, hm.opt.config h1 h2 h3 h4⟩

theorem onOptimizer_post {d : Dims} {m : LMpc K} {c : Spec.LinConfig K} (hm : Inv d m c)
    {y u du v : Nat → Nat → K}
    {f : LOpt K → Exec (LOpt K × Bool)} (hf : Post (f m.o) (fun r => r.2 = true ∧ LOpt.Good d r.1
      { c with yRef := y, uRef := u, duRef := du, dist := v })) :
    Post (m.onOptimizer f) (fun r => r.2 = .bool true ∧ Inv d r.1
      { c with yRef := y, uRef := u, duRef := du, dist := v }) := by
  unfold onOptimizer
  refine Post.bind hf ?_
  rintro ⟨b, t⟩ ⟨ht, hb⟩
  simp only at ht hb ⊢
  subst ht
  exact post_pure ⟨rfl, hm.dims, hm.builder.refs _ _ _ _, hb⟩

/-- The outcome of a call that a history records: nothing changed and `false`/`unit`/exception, or accepted. -/
def StepOk (d : Dims) (c : Spec.LinConfig K) (op : LOp K) (r : LMpc K × LOut K) : Prop :=
  Inv d r.1 (if Spec.accepted r.2 then c.apply op else c)

/-- The call was accepted and had its effect. -/
def AccOk (d : Dims) (c : Spec.LinConfig K) (op : LOp K) (r : LMpc K × LOut K) : Prop :=
  r.2 = .bool true ∧ Inv d r.1 (c.apply op)

theorem AccOk.stepOk {d : Dims} {c : Spec.LinConfig K} {op : LOp K} {r : LMpc K × LOut K}
    (h : AccOk d c op r) : StepOk d c op r := by
  obtain ⟨h1, h2⟩ := h
  unfold StepOk
  rw [h1]
  exact h2

theorem _root_.Mpc.Exec.Post.stepOk {d : Dims} {c : Spec.LinConfig K} {op : LOp K} {e : Exec (LMpc K × LOut K)}
    (h : Post e (AccOk d c op)) : Post e (StepOk d c op) := Post.mono h fun _ h => h.stepOk

theorem stepOk_refused {d : Dims} {c : Spec.LinConfig K} {op : LOp K} {m : LMpc K} (hm : Inv d m c) (out : LOut K)
    (h : Spec.accepted out = false) : StepOk d c op (m, out) := by
  unfold StepOk
  simp only [h]
  exact hm

end LMpc
end Mpc
