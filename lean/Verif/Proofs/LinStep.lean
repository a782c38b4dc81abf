import Verif.Proofs.LinInv

/-
One API call preserves the invariant and has exactly the effect of the register-file specification.
-/
namespace Mpc
open Exec
set_option linter.unusedSectionVars false

theorem Builder.Derived.of_same {K : Type} [Zero K] [One K] [Add K] [Mul K] [Neg K] [ExactOps K] {b r : Builder K} (h : b.Derived) (s : Builder.SameConfig b r)
    (hP : r.P = b.P) (hA : r.A = b.A) (hl : r.lineq = b.lineq) (hu : r.uineq = b.uineq) : r.Derived := by
  obtain ⟨a1, a2, a3, a4, a5, a6, a7, a8, a9, a10, a11, a12, a13, a14, a15, a16, a17, a18, a19⟩ := s
  obtain ⟨h1, h2, h3, h4, h5⟩ := h
  cases b; cases r
  dsimp only at *
  subst a1 a2 a3 a4 a5 a6 a7 a8 a9 a10 a11 a12 a13 a14 a15 a16 a17 a18 a19 hP hA hl hu
  exact ⟨⟨h1.dims, h1.xx, h1.xd, h1.dx, h1.dd⟩, ⟨h2.dims, h2.xx, h2.xd⟩,
    ⟨h3.dims, h3.sx, h3.yx, h3.yd, h3.dr, h3.cx, h3.cd⟩, h4, h5⟩

namespace LMpc
variable {K : Type} [Zero K] [One K] [Add K] [Mul K] [Neg K] [Div K] [NatCast K] [ExactOps K] [DecidableEq K] {d : Dims} {m : LMpc K} {c : Spec.LinConfig K}

/-- Common shape of the slice setters. -/
def sliceOp (m : LMpc K) (h : Nat) (sl : HorizonSlice) (whole loop : Exec (LMpc K × LOut K)) :
    Exec (LMpc K × LOut K) :=
  if isSliceUnset sl then whole
  else isSliceValid h sl >>= fun v => if v then loop else .ok (m, .bool false)

theorem isSliceUnset_iff {sl : HorizonSlice} : isSliceUnset sl = true ↔ sl = HorizonSlice.all := by
  obtain ⟨a, b⟩ := sl
  simp [isSliceUnset, HorizonSlice.all]

theorem sliceOp_inv (hm : Inv d m c) {h : Nat} {sl : HorizonSlice} {whole loop : Exec (LMpc K × LOut K)} {op : LOp K}
    (hw : sl = HorizonSlice.all → ∀ r, whole = .ok r → StepOk d c op r)
    (hl : sl ≠ HorizonSlice.all → isSliceValid h sl = .ok true → ∀ r, loop = .ok r → StepOk d c op r)
    {r} (hr : sliceOp m h sl whole loop = .ok r) : StepOk d c op r := by
  unfold sliceOp at hr
  by_cases hu : isSliceUnset sl = true
  · rw [if_pos hu] at hr
    exact hw (isSliceUnset_iff.mp hu) r hr
  · rw [if_neg hu] at hr
    cases hv : isSliceValid h sl with
    | error e => rw [hv] at hr; cases hr
    | ok v =>
      rw [hv] at hr
      cases v with
      | true => exact hl (fun h => hu (isSliceUnset_iff.mpr h)) hv r hr
      | false => cases hr; exact stepOk_refused hm _ rfl

theorem sliceOp_post (hm : Inv d m c) {h : Nat} {sl : HorizonSlice} {whole loop : Exec (LMpc K × LOut K)} {op : LOp K}
    (hh : h < 2 ^ 30) (h0 : sl = HorizonSlice.all ∨ 0 ≤ sl.start)
    (hw : sl = HorizonSlice.all → Post whole (StepOk d c op))
    (hl : sl ≠ HorizonSlice.all → isSliceValid h sl = .ok true → Post loop (StepOk d c op)) :
    Post (sliceOp m h sl whole loop) (StepOk d c op) := by
  unfold sliceOp
  by_cases hu : isSliceUnset sl = true
  · rw [if_pos hu]
    exact hw (isSliceUnset_iff.mp hu)
  · rw [if_neg hu]
    have hne : sl ≠ HorizonSlice.all := fun h => hu (isSliceUnset_iff.mpr h)
    have hv := isSliceValid_eq (h := h) (h0.resolve_left hne) hh
    rw [hv]
    simp only [ok_bind]
    by_cases hd : (sl.start < sl.stop ∧ sl.start + sl.stop ≤ (h : Int))
    · rw [decide_eq_true hd] at hv ⊢
      exact hl hne hv
    · rw [decide_eq_false hd]
      exact post_ok (stepOk_refused hm _ rfl)

/-- Builder slice loop, total: the slice lies inside the prediction horizon. -/
theorem sliceBuilder_post (hd : d.Valid) (hm : Inv d m c) {sl : HorizonSlice} (h32 : sl.Int32) (h0 : 0 ≤ sl.start)
    (hlt : sl.start < sl.stop) (hph : sl.stop ≤ d.ph) {op : LOp K} {f : Nat → Builder K → Exec (Builder K × Bool)}
    (cfg : Nat → Spec.LinConfig K) (hc0 : cfg sl.start.toNat = c) (hc1 : cfg sl.stop.toNat = c.apply op)
    (hy : (c.apply op).yRef = c.yRef) (hu : (c.apply op).uRef = c.uRef) (hdu : (c.apply op).duRef = c.duRef)
    (hdi : (c.apply op).dist = c.dist)
    (hstep : ∀ i b, sl.start.toNat ≤ i → i < d.ph → Builder.Good d b (cfg i) →
      Post (f i b) (fun r => r.2 = true ∧ Builder.Good d r.1 (cfg (i + 1)))) :
    Post (m.onBuilder fun b => sliceLoop sl b fun i b => f (toUnsigned i) b) (AccOk d c op) := by
  have := hd.ph_int
  refine (onBuilder_post hm hy hu hdu hdi ?_)
  refine Post.mono (sliceLoop_post h32 h0 hlt.le (fun i b => Builder.Good d b (cfg i)) (by rw [hc0]; exact hm.builder)
    ?_) (fun r h => ⟨h.1, by rw [← hc1]; exact h.2⟩)
  intro i b hi hi' hb
  rw [toUnsigned_of_lt (by omega)]
  exact hstep i b hi (by omega) hb

/-- Builder slice loop, partial: an iteration past the prediction horizon faults. -/
theorem sliceBuilder_inv (hm : Inv d m c) {sl : HorizonSlice} (h32 : sl.Int32) (h0 : 0 ≤ sl.start)
    (hlt : sl.start < sl.stop) {op : LOp K} {f : Nat → Builder K → Exec (Builder K × Bool)}
    (cfg : Nat → Spec.LinConfig K) (hc0 : cfg sl.start.toNat = c) (hc1 : cfg sl.stop.toNat = c.apply op)
    (hy : (c.apply op).yRef = c.yRef) (hu : (c.apply op).uRef = c.uRef) (hdu : (c.apply op).duRef = c.duRef)
    (hdi : (c.apply op).dist = c.dist)
    (hstep : ∀ i b, sl.start.toNat ≤ i → i < d.ph → Builder.Good d b (cfg i) →
      Post (f i b) (fun r => r.2 = true ∧ Builder.Good d r.1 (cfg (i + 1))))
    (hbad : ∀ i b, d.ph ≤ i → Builder.Good d b (cfg i) → ∃ e, f i b = .error e)
    {r} (hr : (m.onBuilder fun b => sliceLoop sl b fun i b => f (toUnsigned i) b) = .ok r) : StepOk d c op r := by
  unfold onBuilder at hr
  rw [bind_eq_ok] at hr
  obtain ⟨⟨b', t⟩, hl, hr⟩ := hr
  have := sliceLoop_inv h32 h0 hlt.le (fun i b => Builder.Good d b (cfg i)) (by rw [hc0]; exact hm.builder) ?_ hl
  · obtain ⟨rfl, hb⟩ := this
    rw [hc1] at hb
    cases hr
    exact ⟨hm.dims, hb, hm.opt.config hy hu hdu hdi⟩
  · intro i b t' q hi hi' hb he
    have h1 := h32.2.2
    rw [toUnsigned_of_lt (by omega)] at he
    by_cases hip : i < d.ph
    · have := (hstep i b hi hip hb).of_eq he
      exact this
    · obtain ⟨e, he'⟩ := hbad i b (by omega) hb
      rw [he'] at he; cases he

theorem whole_builder (hm : Inv d m c) {op : LOp K} {f : Builder K → Exec (Builder K × Bool)}
    (hy : (c.apply op).yRef = c.yRef) (hu : (c.apply op).uRef = c.uRef) (hdu : (c.apply op).duRef = c.duRef)
    (hdi : (c.apply op).dist = c.dist)
    (hf : Post (f m.b) (fun r => r.2 = true ∧ Builder.Good d r.1 (c.apply op))) :
    Post (m.onBuilder f) (AccOk d c op) :=
  (onBuilder_post hm hy hu hdu hdi hf)

/-- A replicated column is the constant register file. -/
theorem covers_all_get {α : Type} {rows cols : Nat} {M : Mat α} {v : Vec α} {old : Nat → Nat → α}
    (h : (M.rows = rows ∧ M.cols = cols) ∧ ∀ a k, a < rows → k < cols → M.get a k = v.get a) :
    (M.rows = rows ∧ M.cols = cols) ∧ ∀ a k, a < rows → k < cols →
      M.get a k = Spec.upd (Spec.covers HorizonSlice.all) (fun _ => v.get) old k a :=
  ⟨h.1, fun a k ha hk => by rw [h.2 a k ha hk, upd_covers_all]⟩

theorem weights_whole (hd : d.Valid) (hm : Inv d m c) {OW UW DW : Vec K}
    (hO : OW.size = d.ny) (hU : UW.size = d.nu) (hD : DW.size = d.nu) :
    Post (do
      let OM ← replicateCols m.d.ny m.d.ph m.b.uninit OW
      let UM ← replicateCols m.d.nu m.d.ph m.b.uninit UW
      let DM ← replicateCols m.d.nu m.d.ph m.b.uninit DW
      m.onBuilder fun b => b.setObjective OM UM DM) (AccOk d c (.setObjectiveWeightsSlice OW UW DW HorizonSlice.all)) := by
  obtain rfl := hm.dims
  refine Post.bind (replicateCols_post _ _ _ _ hO) fun OM h1 => ?_
  refine Post.bind (replicateCols_post _ _ _ _ hU) fun UM h2 => ?_
  refine Post.bind (replicateCols_post _ _ _ _ hD) fun DM h3 => ?_
  exact whole_builder hm rfl rfl rfl rfl (Builder.setObjective_post hd.ph_pos hm.builder (covers_all_get h1) (covers_all_get h2) (covers_all_get h3))

theorem weights_loop (hd : d.Valid) (hm : Inv d m c) {OW UW DW : Vec K} {sl : HorizonSlice}
    (hO : OW.size = d.ny) (hU : UW.size = d.nu) (hD : DW.size = d.nu) (h32 : sl.Int32) (h0 : 0 ≤ sl.start) (hv : isSliceValid m.d.ph sl = .ok true) :
    Post (m.onBuilder fun b => sliceLoop sl b fun i b => b.setObjectiveAt (toUnsigned i) OW UW DW)
      (AccOk d c (.setObjectiveWeightsSlice OW UW DW sl)) := by
  obtain rfl := hm.dims
  have hv := isSliceValid_true hv
  refine sliceBuilder_post (f := fun i b => b.setObjectiveAt i OW UW DW)
    (op := .setObjectiveWeightsSlice OW UW DW sl) hd hm h32 h0 hv.1 (by omega)
    (fun i => { c with wY := updIn sl.start.toNat i (fun _ => OW.get) c.wY
                       wU := updIn sl.start.toNat i (fun _ => UW.get) c.wU
                       wDu := updIn sl.start.toNat i (fun _ => DW.get) c.wDu })
    (by simp only [updIn_self]) (by simp only [updIn_covers h0, Spec.LinConfig.apply]) rfl rfl rfl rfl ?_
  intro i b hi hip hb
  have := Builder.setObjectiveAt_post hd hb hip hO hU hD
  simp only [upd_updIn hi] at this
  exact this

theorem stateBounds_whole (hd : d.Valid) (hm : Inv d m c) {mn mx : Vec (Ext K)}
    (hN : mn.size = d.nx) (hM : mx.size = d.nx) :
    Post (do
      let a ← replicateCols m.d.nx m.d.ph m.junkE mn
      let e ← replicateCols m.d.nx m.d.ph m.junkE mx
      m.onBuilder fun b => b.setStateBounds a e) (AccOk d c (.setStateBoundsSlice mn mx HorizonSlice.all)) := by
  obtain rfl := hm.dims
  refine Post.bind (replicateCols_post _ _ _ _ hN) fun a h1 => ?_
  refine Post.bind (replicateCols_post _ _ _ _ hM) fun e h2 => ?_
  exact whole_builder hm rfl rfl rfl rfl (Builder.setStateBounds_post hd.ph_pos hm.builder (covers_all_get h1) (covers_all_get h2))

theorem stateBounds_loop (hd : d.Valid) (hm : Inv d m c) {mn mx : Vec (Ext K)} {sl : HorizonSlice}
    (hN : mn.size = d.nx) (hM : mx.size = d.nx) (h32 : sl.Int32) (h0 : 0 ≤ sl.start) (hv : isSliceValid m.d.ph sl = .ok true) :
    Post (m.onBuilder fun b => sliceLoop sl b fun i b => b.setStateBoundsAt (toUnsigned i) mn mx)
      (AccOk d c (.setStateBoundsSlice mn mx sl)) := by
  obtain rfl := hm.dims
  have hv := isSliceValid_true hv
  refine sliceBuilder_post (f := fun i b => b.setStateBoundsAt i mn mx)
    (op := .setStateBoundsSlice mn mx sl) hd hm h32 h0 hv.1 (by omega)
    (fun i => { c with xMin := updIn sl.start.toNat i (fun _ => mn.get) c.xMin
                       xMax := updIn sl.start.toNat i (fun _ => mx.get) c.xMax })
    (by simp only [updIn_self]) (by simp only [updIn_covers h0, Spec.LinConfig.apply]) rfl rfl rfl rfl ?_
  intro i b hi hip hb
  have := Builder.setStateBoundsAt_post hd hb hip hN hM
  simp only [upd_updIn hi] at this
  exact this

theorem outputBounds_whole (hd : d.Valid) (hm : Inv d m c) {mn mx : Vec (Ext K)}
    (hN : mn.size = d.ny) (hM : mx.size = d.ny) :
    Post (do
      let a ← replicateCols m.d.ny m.d.ph m.junkE mn
      let e ← replicateCols m.d.ny m.d.ph m.junkE mx
      m.onBuilder fun b => b.setOutputBounds a e) (AccOk d c (.setOutputBoundsSlice mn mx HorizonSlice.all)) := by
  obtain rfl := hm.dims
  refine Post.bind (replicateCols_post _ _ _ _ hN) fun a h1 => ?_
  refine Post.bind (replicateCols_post _ _ _ _ hM) fun e h2 => ?_
  exact whole_builder hm rfl rfl rfl rfl (Builder.setOutputBounds_post hd.ph_pos hm.builder (covers_all_get h1) (covers_all_get h2))

theorem outputBounds_loop (hd : d.Valid) (hm : Inv d m c) {mn mx : Vec (Ext K)} {sl : HorizonSlice}
    (hN : mn.size = d.ny) (hM : mx.size = d.ny) (h32 : sl.Int32) (h0 : 0 ≤ sl.start) (hv : isSliceValid m.d.ph sl = .ok true) :
    Post (m.onBuilder fun b => sliceLoop sl b fun i b => b.setOutputBoundsAt (toUnsigned i) mn mx)
      (AccOk d c (.setOutputBoundsSlice mn mx sl)) := by
  obtain rfl := hm.dims
  have hv := isSliceValid_true hv
  refine sliceBuilder_post (f := fun i b => b.setOutputBoundsAt i mn mx)
    (op := .setOutputBoundsSlice mn mx sl) hd hm h32 h0 hv.1 (by omega)
    (fun i => { c with yMin := updIn sl.start.toNat i (fun _ => mn.get) c.yMin
                       yMax := updIn sl.start.toNat i (fun _ => mx.get) c.yMax })
    (by simp only [updIn_self]) (by simp only [updIn_covers h0, Spec.LinConfig.apply]) rfl rfl rfl rfl ?_
  intro i b hi hip hb
  have := Builder.setOutputBoundsAt_post hd hb hip hN hM
  simp only [upd_updIn hi] at this
  exact this

theorem inputBounds_whole (hd : d.Valid) (hm : Inv d m c) {mn mx : Vec (Ext K)}
    (hN : mn.size = d.nu) (hM : mx.size = d.nu) (hch : d.ch = d.ph) :
    Post (do
      let a ← replicateCols m.d.nu m.d.ch m.junkE mn
      let e ← replicateCols m.d.nu m.d.ch m.junkE mx
      m.onBuilder fun b => b.setInputBounds a e) (AccOk d c (.setInputBoundsSlice mn mx HorizonSlice.all)) := by
  obtain rfl := hm.dims
  refine Post.bind (replicateCols_post _ _ _ _ hN) fun a h1 => ?_
  refine Post.bind (replicateCols_post _ _ _ _ hM) fun e h2 => ?_
  exact whole_builder hm rfl rfl rfl rfl (Builder.setInputBounds_post hd hm.builder hch 
    ⟨h1.1, fun i k hi hk => (covers_all_get h1).2 i k hi (by omega)⟩
    ⟨h2.1, fun i k hi hk => (covers_all_get h2).2 i k hi (by omega)⟩)

theorem inputBounds_loop (hd : d.Valid) (hm : Inv d m c) {mn mx : Vec (Ext K)} {sl : HorizonSlice}
    (hN : mn.size = d.nu) (hM : mx.size = d.nu) (h32 : sl.Int32) (h0 : 0 ≤ sl.start) (hch : d.ch ≤ d.ph) (hv : isSliceValid m.d.ch sl = .ok true) :
    Post (m.onBuilder fun b => sliceLoop sl b fun i b => b.setInputBoundsAt (toUnsigned i) mn mx)
      (AccOk d c (.setInputBoundsSlice mn mx sl)) := by
  obtain rfl := hm.dims
  have hv := isSliceValid_true hv
  refine sliceBuilder_post (f := fun i b => b.setInputBoundsAt i mn mx)
    (op := .setInputBoundsSlice mn mx sl) hd hm h32 h0 hv.1 (by omega)
    (fun i => { c with uMin := updIn sl.start.toNat i (fun _ => mn.get) c.uMin
                       uMax := updIn sl.start.toNat i (fun _ => mx.get) c.uMax })
    (by simp only [updIn_self]) (by simp only [updIn_covers h0, Spec.LinConfig.apply]) rfl rfl rfl rfl ?_
  intro i b hi hip hb
  have := Builder.setInputBoundsAt_post hd hb hip hN hM
  simp only [upd_updIn hi] at this
  exact this

theorem inputBounds_whole_fault (hm : Inv d m c) {mn mx : Vec (Ext K)}
    (hN : mn.size = d.nu) (hM : mx.size = d.nu) (hch : d.ch ≠ d.ph) :
    (do
      let a ← replicateCols m.d.nu m.d.ch m.junkE mn
      let e ← replicateCols m.d.nu m.d.ch m.junkE mx
      m.onBuilder fun b => b.setInputBounds a e) = .error .outOfBounds := by
  obtain rfl := hm.dims
  obtain ⟨a, ha, ha'⟩ := replicateCols_post m.d.nu m.d.ch m.junkE mn hN
  obtain ⟨e, he, he'⟩ := replicateCols_post m.d.nu m.d.ch m.junkE mx hM
  rw [ha, ok_bind, he, ok_bind]
  have h := Builder.setInputBounds_fault hm.builder hch ha'.1 he'.1
  show (m.b.setInputBounds a e >>= _) = _
  rw [h]
  rfl

theorem inputBounds_loop_inv (hd : d.Valid) (hm : Inv d m c) {mn mx : Vec (Ext K)} {sl : HorizonSlice}
    (hN : mn.size = d.nu) (hM : mx.size = d.nu) (h32 : sl.Int32) (h0 : 0 ≤ sl.start)
    (hv : isSliceValid m.d.ch sl = .ok true) {r}
    (hr : (m.onBuilder fun b => sliceLoop sl b fun i b => b.setInputBoundsAt (toUnsigned i) mn mx) = .ok r) :
    StepOk d c (.setInputBoundsSlice mn mx sl) r := by
  obtain rfl := hm.dims
  have hv := isSliceValid_true hv
  refine sliceBuilder_inv (f := fun i b => b.setInputBoundsAt i mn mx)
    (op := .setInputBoundsSlice mn mx sl) hm h32 h0 hv.1
    (fun i => { c with uMin := updIn sl.start.toNat i (fun _ => mn.get) c.uMin
                       uMax := updIn sl.start.toNat i (fun _ => mx.get) c.uMax })
    (by simp only [updIn_self]) (by simp only [updIn_covers h0, Spec.LinConfig.apply]) rfl rfl rfl rfl ?_ ?_ hr
  · intro i b hi hip hb
    have := Builder.setInputBoundsAt_post hd hb hip hN hM
    simp only [upd_updIn hi] at this
    exact this
  · intro i b hip hb
    exact Builder.setInputBoundsAt_oob hb hip

theorem covers_all_getVec {α : Type} {n : Nat} {M : Vec α} {v : α} {old : Nat → α}
    (h : M.size = n ∧ ∀ k, k < n → M.get k = v) :
    M.size = n ∧ ∀ k, k < n → M.get k = Spec.upd (Spec.covers HorizonSlice.all) (fun _ => v) old k :=
  ⟨h.1, fun k hk => by rw [h.2 k hk, upd_covers_all]⟩

theorem scalar_whole (hd : d.Valid) (hm : Inv d m c) {mn mx : Ext K} {X U : Vec K}
    (hX : X.size = d.nx) (hU : U.size = d.nu) :
    Post (do
      let a ← replicateVec m.d.ph (fun i => m.junkE i 0) mn
      let e ← replicateVec m.d.ph (fun i => m.junkE i 0) mx
      m.onBuilder fun b => b.setScalarConstraint a e X U)
      (AccOk d c (.setScalarConstraintSlice mn mx X U HorizonSlice.all)) := by
  obtain rfl := hm.dims
  refine Post.bind (replicateVec_post _ _ _) fun a h1 => ?_
  refine Post.bind (replicateVec_post _ _ _) fun e h2 => ?_
  exact whole_builder hm rfl rfl rfl rfl (Builder.setScalarConstraint_post hd.ph_pos hm.builder
    (covers_all_getVec h1) (covers_all_getVec h2) hX hU)

theorem scalar_loop (hd : d.Valid) (hm : Inv d m c) {mn mx : Ext K} {X U : Vec K} {sl : HorizonSlice}
    (hX : X.size = d.nx) (hU : U.size = d.nu) (h32 : sl.Int32) (h0 : 0 ≤ sl.start)
    (hv : isSliceValid m.d.ph sl = .ok true) :
    Post (m.onBuilder fun b => sliceLoop sl b fun i b => b.setScalarConstraintAt (toUnsigned i) mn mx X U)
      (AccOk d c (.setScalarConstraintSlice mn mx X U sl)) := by
  obtain rfl := hm.dims
  have hv := isSliceValid_true hv
  refine sliceBuilder_post (f := fun i b => b.setScalarConstraintAt i mn mx X U)
    (op := .setScalarConstraintSlice mn mx X U sl) hd hm h32 h0 hv.1 (by omega)
    (fun i => { c with sMin := updIn sl.start.toNat i (fun _ => mn) c.sMin
                       sMax := updIn sl.start.toNat i (fun _ => mx) c.sMax
                       sX := if i = sl.start.toNat then c.sX else X.get
                       sU := if i = sl.start.toNat then c.sU else U.get })
    (by simp only [updIn_self, if_true]) ?_ rfl rfl rfl rfl ?_
  · rw [if_neg (by omega), if_neg (by omega)]
    simp only [updIn_covers h0, Spec.LinConfig.apply]
  · intro i b hi hip hb
    have := Builder.setScalarConstraintAt_post (mn := mn) (mx := mx) hd hb hip hX hU
    simp only [upd_updIn hi] at this
    rw [if_neg (by omega), if_neg (by omega)]
    exact this

/-- An optimizer call. -/
theorem opt_step (hm : Inv d m c) {op : LOp K} {f : LOpt K → Exec (LOpt K × Bool)} {y u du v : Nat → Nat → K}
    (hc : c.apply op = { c with yRef := y, uRef := u, duRef := du, dist := v })
    (hf : Post (f m.o) (fun r => r.2 = true ∧ LOpt.Good d r.1 (c.apply op))) :
    Post (m.onOptimizer f) (AccOk d c op) := by
  unfold AccOk
  rw [hc] at hf ⊢
  exact onOptimizer_post hm hf

theorem refs_whole (hm : Inv d m c) {y u du : Vec K}
    (hy : y.size = d.ny) (hu : u.size = d.nu) (hdu : du.size = d.nu) :
    Post (do
      let Y ← replicateCols m.d.ny m.d.ph m.b.uninit y
      let U ← replicateCols m.d.nu m.d.ph m.b.uninit u
      let D ← replicateCols m.d.nu m.d.ph m.b.uninit du
      m.onOptimizer fun o => .ok (o.setReferences Y U D))
      (AccOk d c (.setReferencesSlice y u du HorizonSlice.all)) := by
  obtain rfl := hm.dims
  refine Post.bind (replicateCols_post _ _ _ _ hy) fun Y h1 => ?_
  refine Post.bind (replicateCols_post _ _ _ _ hu) fun U h2 => ?_
  refine Post.bind (replicateCols_post _ _ _ _ hdu) fun D h3 => ?_
  refine opt_step hm (by rfl) ?_
  exact post_ok ⟨rfl, LOpt.setReferences_good hm.opt (covers_all_get h1) (covers_all_get h2) (covers_all_get h3)⟩

theorem exo_whole (hm : Inv d m c) {v : Vec K} (hv : v.size = d.ndu) :
    Post (do
      let M ← replicateCols m.d.ndu m.d.ph m.b.uninit v
      m.onOptimizer fun o => .ok (o.setExogenousInputs M))
      (AccOk d c (.setExogenousInputsSlice v HorizonSlice.all)) := by
  obtain rfl := hm.dims
  refine Post.bind (replicateCols_post _ _ _ _ hv) fun Y h1 => ?_
  refine opt_step hm (by rfl) ?_
  exact post_ok ⟨rfl, LOpt.setExogenous_good hm.opt (covers_all_get h1)⟩

theorem refs_loop (hd : d.Valid) (hm : Inv d m c) {y u du : Vec K} {sl : HorizonSlice}
    (hy : y.size = d.ny) (hu : u.size = d.nu) (hdu : du.size = d.nu) (h32 : sl.Int32) (h0 : 0 ≤ sl.start)
    (hv : isSliceValid m.d.ph sl = .ok true) :
    Post (m.onOptimizer fun o => sliceLoop sl o fun i o => o.setReferencesAt (toUnsigned i) y u du)
      (AccOk d c (.setReferencesSlice y u du sl)) := by
  obtain rfl := hm.dims
  have hv := isSliceValid_true hv
  have hph := hd.ph_int
  refine opt_step hm (by rfl) ?_
  refine Post.mono (sliceLoop_post h32 h0 hv.1.le (fun i o => LOpt.Good m.d o
    { c with yRef := updIn sl.start.toNat i (fun _ => y.get) c.yRef
             uRef := updIn sl.start.toNat i (fun _ => u.get) c.uRef
             duRef := updIn sl.start.toNat i (fun _ => du.get) c.duRef })
    (by simp only [updIn_self]; exact hm.opt) ?_) (fun r h => ⟨h.1, ?_⟩)
  · intro i o hi hi' ho
    rw [toUnsigned_of_lt (by omega)]
    have := LOpt.setReferencesAt_post ho (by omega : i < m.d.ph) hy hu hdu
    simp only [upd_updIn hi] at this
    exact this
  · have h2 := h.2
    simp only [updIn_covers h0] at h2
    exact h2

theorem exo_loop (hd : d.Valid) (hm : Inv d m c) {v : Vec K} {sl : HorizonSlice}
    (hvs : v.size = d.ndu) (h32 : sl.Int32) (h0 : 0 ≤ sl.start) (hch : d.ch ≤ d.ph)
    (hv : isSliceValid m.d.ch sl = .ok true) :
    Post (m.onOptimizer fun o => sliceLoop sl o fun i o => o.setExogenousInputsAt (toUnsigned i) v)
      (AccOk d c (.setExogenousInputsSlice v sl)) := by
  obtain rfl := hm.dims
  have hv := isSliceValid_true hv
  have hph := hd.ph_int
  refine opt_step hm (by rfl) ?_
  refine Post.mono (sliceLoop_post h32 h0 hv.1.le (fun i o => LOpt.Good m.d o
    { c with dist := updIn sl.start.toNat i (fun _ => v.get) c.dist })
    (by simp only [updIn_self]; exact hm.opt) ?_) (fun r h => ⟨h.1, ?_⟩)
  · intro i o hi hi' ho
    rw [toUnsigned_of_lt (by omega)]
    have := LOpt.setExogenousInputsAt_post ho (by omega : i < m.d.ph) hvs
    simp only [upd_updIn hi] at this
    exact this
  · have h2 := h.2
    simp only [updIn_covers h0] at h2
    exact h2

theorem exo_loop_inv (hd : d.Valid) (hm : Inv d m c) {v : Vec K} {sl : HorizonSlice}
    (hvs : v.size = d.ndu) (h32 : sl.Int32) (h0 : 0 ≤ sl.start)
    (hv : isSliceValid m.d.ch sl = .ok true) {r}
    (hr : (m.onOptimizer fun o => sliceLoop sl o fun i o => o.setExogenousInputsAt (toUnsigned i) v) = .ok r) :
    StepOk d c (.setExogenousInputsSlice v sl) r := by
  obtain rfl := hm.dims
  have hv := isSliceValid_true hv
  have hph := hd.ph_int
  unfold onOptimizer at hr
  rw [bind_eq_ok] at hr
  obtain ⟨⟨o', t⟩, hl, hr⟩ := hr
  have := sliceLoop_inv h32 h0 hv.1.le (fun i o => LOpt.Good m.d o
    { c with dist := updIn sl.start.toNat i (fun _ => v.get) c.dist })
    (by simp only [updIn_self]; exact hm.opt) ?_ hl
  · obtain ⟨rfl, ho⟩ := this
    simp only [updIn_covers h0] at ho
    cases hr
    exact ⟨hm.dims, hm.builder.refs _ _ _ _, ho⟩
  · intro i o o' q hi hi' ho he
    have h1 := h32.2.2
    rw [toUnsigned_of_lt (by omega)] at he
    by_cases hip : i < m.d.ph
    · have := (LOpt.setExogenousInputsAt_post ho hip hvs).of_eq he
      simp only [upd_updIn hi] at this
      exact this
    · rw [LOpt.setExogenousInputsAt_oob ho (by omega)] at he
      cases he

theorem optimize_post (hd : d.Valid) (hm : Inv d m c) {x0 u0 : Vec K} (hx : x0.size = d.nx) (hu : u0.size = d.nu)
    {status : Int} {obj : K} {sol : Option ((Nat → K) × (Nat → K))} (hw : LOpt.WarmFits d m.o) :
    Post (m.step (.optimize x0 u0 (.answered status obj sol)))
      (StepOk d c (.optimize x0 u0 (.answered status obj sol))) := by
  obtain ⟨r, hr, hr'⟩ := LOpt.run_post hd.ph_pos hm.opt hm.builder.shaped hm.builder.dims hx hu (status := status)
    (obj := obj) (sol := sol) hw
  have hg := LOpt.run_good hd.ph_pos hm.opt hm.builder.shaped hm.builder.dims hx hu hw hr
  simp only [step]
  rw [hr]
  obtain ⟨o, b, call⟩ := r
  simp only [ok_bind]
  refine post_pure ?_
  unfold StepOk
  simp only [Spec.accepted]
  refine ⟨hm.dims, ?_, hg⟩
  have h1 := hr'.1
  simp only at h1
  have hdd := hm.builder.dims
  have hs := h1.same
  refine ⟨by rw [hs.d]; exact hdd, h1.shaped, ?_, hm.builder.repr.of_same hs⟩
  exact hm.builder.derived.of_same hs h1.P h1.A h1.lineq h1.uineq

end LMpc
end Mpc
