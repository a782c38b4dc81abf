import Verif.Proofs.Environment

/-
No call faults in a well-formed history in environments which change.
-/
namespace Mpc
open Exec NlSpec NlMpc
set_option linter.unusedSectionVars false
variable {E : Type} {d : Dims} {K : Type} [Field K] [LinearOrder K] [IsStrictOrderedRing K]

theorem EnvCall.fits_any {op : EnvCall E d K} (e e' : E) (h : TCallFits d (op.frozen e)) : TCallFits d (op.frozen e') := by
  cases op <;> exact h

theorem EnvCall.adm_any {op : EnvCall E d K} {dyn : Bool} (e e' : E) (h : TAdmissible d dyn (op.frozen e)) :
    TAdmissible d dyn (op.frozen e') := by
  cases op <;> exact h

theorem frozen_fits {ops : List (E × EnvCall E d K)} (e : E) (h : EnvFits d ops) : ∀ op ∈ frozenAt e ops, TCallFits d op := by
  intro op ho
  obtain ⟨p, hp, rfl⟩ := List.mem_map.1 ho
  exact EnvCall.fits_any _ _ (h p hp)

theorem frozen_adm {ops : List (E × EnvCall E d K)} {dyn : Bool} (e : E) (h : EnvAdmissible d dyn ops) :
    ∀ op ∈ frozenAt e ops, TAdmissible d dyn op := by
  intro op ho
  obtain ⟨p, hp, rfl⟩ := List.mem_map.1 ho
  exact EnvCall.adm_any _ _ (h p hp)

theorem Handles.visits_total {h : Handles E d K} {o : NlOpt K} {e0 : E} {s : NlState d K} {c : NlCtl d K} {x0 : Vec K}
    (hs : s.Holds (h.cfgAt e0 (c.cfg.step (.measure x0)))) (hp : d.ph < 2 ^ 31) (hb : ∀ e, (h.ctlAt e c).Bound)
    (hobj : o.objective = c.obj) (hgr : o.groups = c.groups)
    {vs : List (E × NlVisit K)} (hf : ∀ v ∈ vs, VisitFits d v.2) : ∃ s', h.visits o s vs = .ok s' := by
  induction vs using List.reverseRecOn with
  | nil => exact ⟨s, rfl⟩
  | append_singleton l v ih =>
    obtain ⟨s1, h1⟩ := ih (fun k hk => hf k (by simp [hk]))
    obtain ⟨⟨e1, g1⟩, -⟩ := visits_ok hs hp (fun k hk => hf k (by simp [hk])) h1
    have g2 := look_holds (e := v.1) g1
    obtain ⟨s2, h2⟩ := NlMpc.visits_total (o := o) (c := h.ctlAt v.1 c) g2 hp (hb v.1) hobj hgr
      (fun k hk => by cases k <;> exact hk) (fun hk => hk) (vs := [v.2])
      (fun q hq => by rw [List.mem_singleton.1 hq]; exact hf v (by simp))
    refine ⟨s2, ?_⟩
    unfold visits at h1 ⊢
    rw [List.foldl_append, h1]
    exact h2

theorem Handles.optimize_total {h : Handles E d K} {e e' : E} {m : NlMpc d K} {c : NlCtl d K} (hm : m.Agrees (h.ctlAt e' c))
    (hp : d.ph < 2 ^ 31) {x0 u0 : Vec K} {vs : List (E × NlVisit K)} {ending : NlEnding K} {junk : Nat → K}
    (hf : TCallFits d (.optimize x0 u0 (vs.map Prod.snd) ending junk)) (hb : ∀ e, (h.ctlAt e c).Bound)
    (heq : ∀ e, (h.ctlAt e c).cfg.eq.isSome = true → 0 < d.eq) : ∃ r, h.optimize e m x0 u0 vs ending junk = .ok r := by
  obtain ⟨hx, hu, hvs, hz⟩ := hf
  have hvs' : ∀ v ∈ vs, VisitFits d v.2 := fun v hv => hvs v.2 (List.mem_map_of_mem hv)
  unfold optimize
  obtain ⟨m1, h1⟩ := onState_total hm hp (.measure x0) hx trivial
  obtain ⟨k1, k2, k3, k4⟩ := onState_agrees hm hp (op := .measure x0) hx h1
  have k1' : m1.s.Holds (h.cfgAt e' (c.cfg.step (.measure x0))) := k1
  rw [h1, ok_bind]
  obtain ⟨p, h2⟩ := (NlOpt.prepare_start k1.good k1.dims junk hx hu (o := m1.o) (by rw [k3]; exact hm.zs)).exists_ok
  rw [h2, ok_bind]
  obtain ⟨s, h3⟩ := visits_total (o := m1.o) k1' hp hb (by rw [k3]; exact hm.obj) (by rw [k3]; exact hm.groups) hvs'
  rw [h3, ok_bind]
  -- compare with a call without callbacks from the state they leave
  obtain ⟨⟨e2, l1⟩, l2⟩ := visits_ok k1' hp hvs' h3
  have l3 : (h.look e s).Holds ((h.ctlAt e c).cfg.step (.measure x0)) := look_holds l1
  obtain ⟨t1, t2⟩ := tol_pair k2
  have ha : Agrees { m with s := h.look e s } { h.ctlAt e c with cfg := (h.ctlAt e c).cfg.step (.measure x0) } := by
    refine agrees_state (m := { m with s := h.look e m.s }) (m' := { m with s := h.look e s }) (c := h.ctlAt e c) (ti := c.ti)
      (te := c.te) (look_agrees hm) l3 (fun hh => ?_) (fun hh => ?_) rfl
    · refine (l2.ti.trans t1).trans (hm.ti ?_)
      have hh : (h.ineq.map fun F => F e).isSome = true := hh
      show (h.ineq.map fun F => F e').isSome = true
      rw [Option.isSome_map] at hh ⊢
      exact hh
    · refine (l2.te.trans t2).trans (hm.te ?_)
      have hh : (h.eq.map fun F => F e).isSome = true := hh
      show (h.eq.map fun F => F e').isSome = true
      rw [Option.isSome_map] at hh ⊢
      exact hh
  have hb' : (({ h.ctlAt e c with cfg := (h.ctlAt e c).cfg.step (.measure x0) } : NlCtl d K)).Bound :=
    ⟨(hb e).obj, fun g hg => by have := (hb e).set g hg; revert this; cases g.kind <;> exact id, (hb e).dim⟩
  obtain ⟨r, hr⟩ := optimizeT_total ha hp (vs := []) (e := ending) (junk := junk) (x0 := x0) (u0 := u0) ⟨hx, hu, by simp, hz⟩ hb'
    (heq e)
  refine ⟨r, ?_⟩
  rw [← hr]
  unfold optimizeT onState
  dsimp only
  rw [measured l3 hx, ok_bind]
  dsimp only [pure_bind']
  have emp : (h.look e s).mp = m1.s.mp := l2.mp
  rw [emp, ← k3, h2, ok_bind]
  unfold NlMpc.visits
  rw [List.foldl_nil, ok_bind]
  have eo : m1.dynamic = m.dynamic := k4
  obtain ⟨ms, mo, md⟩ := m1
  dsimp only at k3 eo ⊢
  subst k3 eo
  rfl

theorem Handles.run_total (e0 : E) (hch : 0 < d.ch) (hle : d.ch ≤ d.ph) (hp : d.ph < 2 ^ 30) (hn : d.nZ ≤ 2 ^ 64)
    (junk : Nat → K) (dyn : Bool) (ops : List (E × EnvCall E d K)) (hf : EnvFits d ops)
    (ha : EnvAdmissible d dyn ops) : ∃ r, run d junk dyn ops = .ok r := by
  have hp' : d.ph < 2 ^ 31 := by omega
  induction ops using List.reverseRecOn with
  | nil =>
    obtain ⟨m, hm⟩ := (init_agrees hch hle hp' junk dyn).exists_ok
    unfold run
    exact ⟨(({}, m), []), by rw [List.foldl_nil, hm, ok_bind]; rfl⟩
  | append_singleton ops a ih =>
    have ff : EnvFits d ops := fun o ho => hf o (by simp [ho])
    have fa : EnvAdmissible d dyn ops := fun o ho => ha o (by simp [ho])
    obtain ⟨⟨⟨h, m⟩, outs⟩, h1⟩ := ih ff fa
    obtain ⟨g1, g2, c, e', g3, g4⟩ := run_agrees e0 hch hle hp' hn ff h1
    rw [run_snoc, h1, ok_bind]
    have hl : ∀ e, outs.length = (frozenAt e ops).length := fun e => by simp [frozenAt, g1]
    have heq : ∀ e, (h.ctlAt e c).cfg.eq.isSome = true → 0 < d.eq := by
      intro e hs
      rw [← g4 e] at hs
      obtain ⟨F, tol, acc, hm⟩ := NlCtl.afterT_eq (hl e) hs
      exact And.right (frozen_adm e fa _ hm)
    have hb : ∀ e, (h.ctlAt e c).Bound := fun e => by rw [← g4 e]; exact NlCtl.afterT_bound _ _
    have hop := ha a (by simp)
    have hfa := hf a (by simp)
    suffices hs : ∃ r, h.step a.1 m a.2 = .ok r by
      obtain ⟨r, hs⟩ := hs
      dsimp only
      rw [hs, ok_bind]
      exact ⟨_, rfl⟩
    obtain ⟨e, op⟩ := a
    have other : ∀ op' : NlCall d K, CallFits d op' → TAdmissible d dyn (.call op') →
        ∃ r, NlMpc.stepT { m with s := h.look e m.s } (.call op') = .ok r := by
      intro op' hf' hop
      refine step_total (look_agrees (e := e) g3) hp op' hf' ?_
      cases op' with
      | setEqConFunction F tol acc => exact g2.trans hop.1
      | optimize x0 u0 cs oc j => exact ⟨hb e, heq e⟩
      | setOptimizerParameters p => exact hop
      | setStateBoundsSlice l u s => exact hop
      | setInputBoundsSlice l u s => exact hop
      | _ => trivial
    have lift : ∀ op' : EnvCall E d K, (∃ r, NlMpc.stepT { m with s := h.look e m.s } (op'.frozen e) = .ok r) →
        ∃ r, (do
          let r ← NlMpc.stepT { m with s := h.look e m.s } (op'.frozen e)
          return ((h.store op', r.1), r.2) : Exec _) = .ok r := by
      rintro op' ⟨r, hr⟩
      rw [hr, ok_bind]
      exact ⟨_, rfl⟩
    cases op with
    | optimize x0 u0 vs ending j =>
      obtain ⟨r, hr⟩ := optimize_total (e := e) g3 hp' hfa hb heq
      simp only [step]
      rw [hr, ok_bind]
      exact ⟨_, rfl⟩
    | call op => exact lift _ (other _ hfa hop)
    | setObjectiveFunction f acc => exact lift (.setObjectiveFunction f acc) (other _ hfa hop)
    | setStateSpaceFunction F tol acc => exact lift (.setStateSpaceFunction F tol acc) (other _ hfa hop)
    | setOutputFunction g => exact lift (.setOutputFunction g) (other _ hfa hop)
    | setIneqConFunction F tol acc => exact lift (.setIneqConFunction F tol acc) (other _ hfa hop)
    | setEqConFunction F tol acc => exact lift (.setEqConFunction F tol acc) (other _ hfa hop)

end Mpc
