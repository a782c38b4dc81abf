import Verif.Proofs.NlCtl

/-
One API call on the nonlinear controller.
-/
namespace Mpc
open Exec
set_option linter.unusedSectionVars false

variable {d : Dims} {K : Type} [Field K] [LinearOrder K] [IsStrictOrderedRing K]

theorem nZ_eq : d.nZ = NlSpec.slackIx d + 1 := by
  unfold Dims.nZ NlSpec.slackIx
  rw [Nat.mul_comm d.nu]

namespace NlOpt

theorem pinSlack_post (o : NlOpt K) (h1 : o.lb.size = d.nZ) (h2 : o.ub.size = d.nZ) (hard : Bool) :
    pinSlack o d hard = .ok { o with
      lb := ⟨d.nZ, fun v => if v = NlSpec.slackIx d ∧ hard = true then .fin 0 else o.lb.get v⟩
      ub := ⟨d.nZ, fun v => if v = NlSpec.slackIx d ∧ hard = true then .fin 0 else o.ub.get v⟩ } := by
  have hs : d.ph * d.nx + d.nu * d.ch + 1 - 1 = NlSpec.slackIx d := by
    unfold NlSpec.slackIx; rw [Nat.mul_comm d.nu]; rfl
  have h3 := nZ_eq (d := d)
  obtain ⟨⟨n1, g1⟩, ⟨n2, g2⟩, _, _, _, _, _, _, _, _, _, _, _, _, _⟩ := o
  dsimp only at h1 h2
  subst h1 h2
  unfold pinSlack
  cases hard
  · simp only [Bool.false_eq_true, and_false, if_false]
    rfl
  · rw [if_pos rfl, hs, Vec.set_ok (by dsimp only; omega), ok_bind, Vec.set_ok (by dsimp only; omega), ok_bind]
    simp only [and_true]
    rfl

theorem setParameters_ok (o : NlOpt K) (h1 : o.lb.size = d.nZ) (h2 : o.ub.size = d.nZ) (p : NlParams K) :
    o.setParameters d (.nonlinear p) = .ok (updateBounds { o with
      limits := setLimits o.limits p, warm := p.enable_warm_start
      lb := ⟨d.nZ, fun v => if v = NlSpec.slackIx d ∧ p.hard_constraints = true then .fin 0 else o.lb.get v⟩
      ub := ⟨d.nZ, fun v => if v = NlSpec.slackIx d ∧ p.hard_constraints = true then .fin 0 else o.ub.get v⟩ }) := by
  unfold setParameters
  dsimp only
  rw [pinSlack_post _ (by exact h1) (by exact h2), ok_bind]
  rfl

end NlOpt

namespace NlMpc

theorem init_agrees (hch : 0 < d.ch) (hle : d.ch ≤ d.ph) (hp : d.ph < 2 ^ 31) (junk : Nat → K) (dyn : Bool) :
    Post (init d junk dyn) (fun m => m.Agrees (NlCtl.fresh d) ∧ m.dynamic = dyn) := by
  unfold init
  refine Post.bind (NlState.init_holds hch hle hp junk false 0) ?_
  intro s hs
  unfold NlOpt.init
  dsimp only
  rw [NlOpt.setParameters_ok _ (by rfl) (by rfl), ok_bind]
  refine post_pure ⟨⟨hs, ?_, ?_, rfl, rfl, ?_, ?_, rfl, rfl, ?_, rfl, rfl, rfl, rfl, fun _ _ => rfl, rfl, rfl, rfl,
    fun _ _ => rfl⟩, rfl⟩
  · intro h; cases h
  · intro h; cases h
  · funext v; simp [NlCtl.fresh, NlOpt.updateBounds, Vec.const]
  · funext v; simp [NlCtl.fresh, NlOpt.updateBounds, Vec.const]
  · simp [NlCtl.fresh, NlOpt.updateBounds, NlOpt.setLimits]

theorem Agrees.pos {m : NlMpc d K} {c : NlCtl d K} (h : m.Agrees c) : 0 < d.ch ∧ d.ch ≤ d.ph := h.holds.pos

/-- an operation on the evaluation objects -/
theorem onState_agrees {m m' : NlMpc d K} {c : NlCtl d K} (h : m.Agrees c) (hp : d.ph < 2 ^ 31) {op : NlOp d K}
    (hf : NlSpec.OpFits d op) (hr : m.onState op = .ok m') :
    m'.s.Holds (c.cfg.step op) ∧ (m'.s.con.ieqTol, m'.s.con.eqTol) = op.tols (m.s.con.ieqTol, m.s.con.eqTol) ∧
      m'.o = m.o ∧ m'.dynamic = m.dynamic := by
  unfold onState at hr
  obtain ⟨s, hs, hr⟩ := bind_eq_ok.1 hr
  cases hr
  exact ⟨NlState.exec_holds h.holds hp op hf hs, NlState.exec_tol hs, rfl, rfl⟩

/-- bounds written by one of the optimizer's setters -/
theorem setBounds_spec {o : NlOpt K} {off n start stop : Nat} {lo up : Vec (Ext K)} {r : NlOpt K × Bool}
    (h : (do
      let b ← NlOpt.fillBounds lo up off n start stop (o.lb, o.ub)
      return (NlOpt.updateBounds { o with lb := b.1, ub := b.2 }, true) : Exec (NlOpt K × Bool)) = .ok r) :
    ∃ lb ub : Vec (Ext K), r = (NlOpt.updateBounds { o with lb := lb, ub := ub }, true) ∧
      lb.size = o.lb.size ∧ ub.size = o.ub.size ∧ lb.get = NlOpt.written off n start stop lo.get o.lb.get ∧
      ub.get = NlOpt.written off n start stop up.get o.ub.get := by
  obtain ⟨b, hb, h⟩ := bind_eq_ok.1 h
  obtain ⟨⟨h1, h2⟩, h3, h4⟩ := NlOpt.fillBounds_written hb
  cases h
  exact ⟨b.1, b.2, rfl, h1, h3, h2, h4⟩

theorem agrees_bounds {m : NlMpc d K} {c : NlCtl d K} (h : m.Agrees c) {lb ub : Vec (Ext K)} (h1 : lb.size = d.nZ)
    (h2 : ub.size = d.nZ) :
    Agrees { m with o := NlOpt.updateBounds { m.o with lb := lb, ub := ub } } { c with lo := lb.get, up := ub.get } :=
  ⟨h.holds, h.ti, h.te, h1, h2, rfl, rfl, rfl, rfl, h.lim, h.warm, h.obj, h.groups, h.zs, h.z, h.first, h.slack, h.cmds,
    h.cmd⟩

/-- one of the slice setters of the bounds -/
theorem sliceBounds_agrees {m m' : NlMpc d K} {c : NlCtl d K} (h : m.Agrees c) {off n start stop hor : Nat}
    {lo up : Vec (Ext K)} {s : HorizonSlice} {out : NlOut K} {set : NlOpt K → Exec (NlOpt K × Bool)}
    (hset : ∀ o, set o = (do
      let b ← NlOpt.fillBounds lo up off n start stop (o.lb, o.ub)
      return (NlOpt.updateBounds { o with lb := b.1, ub := b.2 }, true) : Exec (NlOpt K × Bool)))
    (hr : m.sliceBounds hor s set = .ok (m', out)) :
    ∃ b, out = .bool b ∧ m'.dynamic = m.dynamic ∧ (if b then m'.Agrees { c with
      lo := NlOpt.written off n start stop lo.get c.lo, up := NlOpt.written off n start stop up.get c.up } else m' = m) ∧
      (if isSliceUnset s then b = true else isSliceValid hor s = .ok b) := by
  unfold sliceBounds at hr
  have key : ∀ (v : Bool), (if v = true then (do
      let r ← set m.o
      return ({ m with o := r.1 }, NlOut.bool (true && r.2)) : Exec (NlMpc d K × NlOut K)) else
      return (m, .bool false)) = .ok (m', out) →
      out = .bool v ∧ m'.dynamic = m.dynamic ∧ (if v then m'.Agrees { c with
        lo := NlOpt.written off n start stop lo.get c.lo, up := NlOpt.written off n start stop up.get c.up } else m' = m) := by
    intro v hv
    cases v
    · cases hv
      exact ⟨rfl, rfl, rfl⟩
    · rw [if_pos rfl] at hv
      obtain ⟨r, hr, hv⟩ := bind_eq_ok.1 hv
      rw [hset] at hr
      obtain ⟨lb, ub, rfl, h1, h2, h3, h4⟩ := setBounds_spec hr
      cases hv
      refine ⟨rfl, rfl, ?_⟩
      rw [if_pos rfl]
      have := agrees_bounds h (h1.trans h.lbs) (h2.trans h.ubs)
      rw [h3, h4, h.lb, h.ub] at this
      exact this
  by_cases hu : isSliceUnset s = true
  · rw [if_pos hu, ok_bind] at hr
    obtain ⟨h1, h2, h3⟩ := key true hr
    exact ⟨true, h1, h2, h3, by rw [if_pos hu]⟩
  · rw [if_neg hu] at hr
    obtain ⟨v, hv, hr⟩ := bind_eq_ok.1 hr
    obtain ⟨h1, h2, h3⟩ := key v hr
    exact ⟨v, h1, h2, h3, by rw [if_neg hu]; exact hv⟩

theorem write_snoc {off n i : Nat} (hw : off + (i + 1) * n ≤ 2 ^ 64) {v : Nat → Nat → Ext K} {old : Nat → Ext K} :
    NlOpt.written off n i (i + 1) (fun a => v a i) (NlCtl.writeMat off n i v old) = NlCtl.writeMat off n (i + 1) v old := by
  funext p
  rw [NlOpt.written_eq (Or.inr hw)]
  unfold NlCtl.writeMat
  by_cases h1 : off ≤ p ∧ 0 < n
  · obtain ⟨h1, h2⟩ := h1
    by_cases h3 : (p - off) / n = i
    · rw [if_pos (show NlOpt.Addressed off n i (i + 1) p from ⟨h1, h2, by omega, by omega⟩),
        if_pos (show NlOpt.Addressed off n 0 (i + 1) p from ⟨h1, h2, Nat.zero_le _, by omega⟩), h3]
    · rw [if_neg (show ¬ NlOpt.Addressed off n i (i + 1) p by rintro ⟨_, _, _, _⟩; omega)]
      by_cases h4 : (p - off) / n < i
      · rw [if_pos (show NlOpt.Addressed off n 0 i p from ⟨h1, h2, Nat.zero_le _, h4⟩),
          if_pos (show NlOpt.Addressed off n 0 (i + 1) p from ⟨h1, h2, Nat.zero_le _, by omega⟩)]
      · rw [if_neg (show ¬ NlOpt.Addressed off n 0 i p by rintro ⟨_, _, _, _⟩; omega),
          if_neg (show ¬ NlOpt.Addressed off n 0 (i + 1) p by rintro ⟨_, _, _, _⟩; omega)]
  · have h5 : ∀ x y, ¬ NlOpt.Addressed off n x y p := fun x y h => h1 ⟨h.1, h.2.1⟩
    rw [if_neg (h5 _ _), if_neg (h5 _ _), if_neg (h5 _ _)]

/-- one of the matrix setters of the bounds -/
theorem matrixBounds_agrees {m m' : NlMpc d K} {c : NlCtl d K} (h : m.Agrees c) {off n hor : Nat} {mn mx : Mat (Ext K)}
    {out : NlOut K} {set : NlOpt K → Vec (Ext K) → Vec (Ext K) → HorizonSlice → Exec (NlOpt K × Bool)} (hhor : hor < 2 ^ 31) (hmem : off + hor * n ≤ 2 ^ 64)
    (hset : ∀ o l u s, set o l u s = (do
      let b ← NlOpt.fillBounds l u off n (NlOpt.sliceStart s) (NlOpt.sliceStop hor s) (o.lb, o.ub)
      return (NlOpt.updateBounds { o with lb := b.1, ub := b.2 }, true) : Exec (NlOpt K × Bool)))
    (hr : m.matrixBounds hor mn mx set = .ok (m', out)) :
    out = .bool true ∧ m'.dynamic = m.dynamic ∧ m'.Agrees { c with
      lo := NlCtl.writeMat off n hor mn.get c.lo, up := NlCtl.writeMat off n hor mx.get c.up } := by
  unfold matrixBounds at hr
  obtain ⟨q, hq, hr⟩ := bind_eq_ok.1 hr
  cases hr
  have := forFrom_inv (σ := NlOpt K × Bool) (fun i q => q.2 = true ∧ Agrees { m with o := q.1 } { c with
    lo := NlCtl.writeMat off n i mn.get c.lo, up := NlCtl.writeMat off n i mx.get c.up }) ?_ ?_ hq
  · rw [Nat.zero_add] at this
    exact ⟨by rw [this.1], rfl, this.2⟩
  · refine ⟨rfl, ?_⟩
    have e : ∀ (v : Nat → Nat → Ext K) old, NlCtl.writeMat off n 0 v old = old := by
      intro v old
      funext p
      unfold NlCtl.writeMat
      rw [if_neg (show ¬ NlOpt.Addressed off n 0 0 p by rintro ⟨_, _, _, h⟩; omega)]
    rw [e, e]
    exact h
  · rintro i ⟨o, b⟩ q' _ hi ⟨hb, ha⟩ hs
    dsimp only at hb ha hs
    obtain ⟨l, hl, hs⟩ := bind_eq_ok.1 hs
    obtain ⟨u, hu, hs⟩ := bind_eq_ok.1 hs
    obtain ⟨r, hr, hs⟩ := bind_eq_ok.1 hs
    rw [hset] at hr
    have e1 : NlOpt.sliceStart ⟨(i : Int), (i : Int) + 1⟩ = i := by
      unfold NlOpt.sliceStart toSizeT
      dsimp only
      rw [if_neg (by omega)]
      omega
    have e2 : NlOpt.sliceStop hor ⟨(i : Int), (i : Int) + 1⟩ = i + 1 := by
      unfold NlOpt.sliceStop toSizeT
      dsimp only
      rw [if_neg (by omega)]
      omega
    rw [e1, e2] at hr
    obtain ⟨lb, ub, rfl, h1, h2, h3, h4⟩ := setBounds_spec hr
    cases hs
    refine ⟨by simp [hb], ?_⟩
    have := agrees_bounds ha (h1.trans ha.lbs) (h2.trans ha.ubs)
    dsimp only at this
    have hlg : ∀ {M : Mat (Ext K)} {w : Vec (Ext K)}, M.col i = .ok w → w.get = fun a => M.get a i := by
      intro M w hw
      unfold Mat.col at hw
      obtain ⟨_, _, hw⟩ := bind_eq_ok.1 hw
      cases hw
      rfl
    have hw : off + (i + 1) * n ≤ 2 ^ 64 := by
      have : (i + 1) * n ≤ hor * n := Nat.mul_le_mul_right _ (by omega)
      omega
    have g1 := ha.lb
    have g2 := ha.ub
    dsimp only at g1 g2
    rw [h3, h4, g1, g2, hlg hl, hlg hu, write_snoc hw, write_snoc hw] at this
    exact this

end NlMpc
end Mpc
