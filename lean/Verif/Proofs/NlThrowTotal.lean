import Verif.Proofs.NlTraces
import Verif.Proofs.NlTotal
import Verif.Proofs.NlLast

/-
No call faults in a well-formed history, with user functions which throw.
-/
namespace Mpc
open Exec
set_option linter.unusedSectionVars false

variable {d : Dims} {K : Type} [Field K] [LinearOrder K] [IsStrictOrderedRing K]

open NlSpec

theorem NlCtl.Bound.stepT {c : NlCtl d K} (h : c.Bound) (b : Bool) (op : NlTCall d K) : (c.stepT b op).Bound := by
  cases op with
  | call op => exact h.step b op
  | optimize x0 u0 vs e j =>
    cases e with
    | outputThrows z =>
      have := h.step b (.optimize x0 u0 [] (.answered z (.fin 0) 0 false) j)
      exact ⟨this.obj, this.set, this.dim⟩
    | solverThrows => exact h.step b (.optimize x0 u0 [] .threw j)
    | checkThrows z w => exact h.step b (.optimize x0 u0 [] (.answered z (.fin 0) 0 true) j)
    | returns z v k => exact h.step b (.optimize x0 u0 [] (.answered z v k false) j)

theorem NlCtl.stepT_eq {c : NlCtl d K} (b : Bool) (op : NlTCall d K) (h : (c.stepT b op).cfg.eq.isSome = true) :
    c.cfg.eq.isSome = true ∨ ∃ F tol acc, op = .call (.setEqConFunction F tol acc) := by
  cases op with
  | call q =>
    have h : (c.step b q).cfg.eq.isSome = true := h
    cases q with
    | setEqConFunction F tol acc => exact Or.inr ⟨F, tol, acc, rfl⟩
    | optimize x0 u0 cs oc j =>
      left
      have h : (c.solved _ _ _).cfg.eq.isSome = true := h
      rwa [NlMpc.solved_cfg] at h
    | setOptimizerParameters p => left; cases p <;> exact h
    | setStateBoundsSlice => left; cases b <;> exact h
    | setInputBoundsSlice => left; cases b <;> exact h
    | _ => left; exact h
  | optimize x0 u0 vs e j => left; cases e <;> exact h

theorem NlCtl.afterT_bound (ops : List (NlTCall d K)) (outs : List (NlOut K)) : (NlCtl.afterT d ops outs).Bound := by
  unfold NlCtl.afterT
  induction ops.zip outs using List.reverseRecOn with
  | nil => exact NlCtl.fresh_bound
  | append_singleton l a ih =>
    rw [List.foldl_append]
    exact ih.stepT _ _

theorem NlCtl.afterT_eq {ops : List (NlTCall d K)} : ∀ {outs : List (NlOut K)} (_ : outs.length = ops.length)
    (_ : (NlCtl.afterT d ops outs).cfg.eq.isSome = true), ∃ F tol acc, .call (.setEqConFunction F tol acc) ∈ ops := by
  induction ops using List.reverseRecOn with
  | nil => intro outs _ h; cases h
  | append_singleton ops op ih =>
    intro outs hl h
    rcases List.eq_nil_or_concat outs with rfl | ⟨outs', o, rfl⟩
    · simp at hl
    · have hl' : outs'.length = ops.length := by simpa using hl
      rw [List.concat_eq_append, NlCtl.afterT_snoc hl'] at h
      rcases NlCtl.stepT_eq _ _ h with e | ⟨F, tol, acc, rfl⟩
      · obtain ⟨F, tol, acc, hm⟩ := ih hl' e
        exact ⟨F, tol, acc, by simp [hm]⟩
      · exact ⟨F, tol, acc, by simp⟩

namespace NlMpc

theorem visits_total {o : NlOpt K} {s : NlState d K} {c : NlCtl d K} {f : NlSpec.Cfg d K} (h : s.Holds f)
    (hp : d.ph < 2 ^ 31) (hb : c.Bound) (hobj : o.objective = c.obj) (hgr : o.groups = c.groups)
    (hs : ∀ k : NlGroupKind, k.Set c.cfg → k.Set f) (hso : c.cfg.obj.isSome = true → f.obj.isSome = true)
    {vs : List (NlVisit K)} (hf : ∀ v ∈ vs, VisitFits d v) : ∃ s', visits o s vs = .ok s' := by
  induction vs using List.reverseRecOn with
  | nil => exact ⟨s, rfl⟩
  | append_singleton l v ih =>
    obtain ⟨s1, h1⟩ := ih (fun k hk => hf k (by simp [hk]))
    obtain ⟨g1, -⟩ := visits_ok h hp (fun k hk => hf k (by simp [hk])) h1
    have hv := hf v (by simp)
    suffices hs : ∃ r, visit o s1 v = .ok r by
      obtain ⟨r, hs⟩ := hs
      refine ⟨r, ?_⟩
      unfold visits at h1 ⊢
      rw [List.foldl_append, h1]
      exact hs
    cases v with
    | throws w => exact ⟨_, rfl⟩
    | returns k =>
      obtain ⟨s2, h2⟩ := callbacks_total g1 hp hb hobj hgr hs hso (cs := [k])
        (fun q hq => by rw [List.mem_singleton.1 hq]; exact hv)
      exact ⟨s2, h2⟩

theorem optimizeT_total {m : NlMpc d K} {c : NlCtl d K} (h : m.Agrees c) (hp : d.ph < 2 ^ 31) {x0 u0 : Vec K}
    {vs : List (NlVisit K)} {e : NlEnding K} {junk : Nat → K}
    (hf : TCallFits d (.optimize x0 u0 vs e junk)) (hr : c.Bound)
    (heq : c.cfg.eq.isSome = true → 0 < d.eq) : ∃ r, m.optimizeT x0 u0 vs e junk = .ok r := by
  obtain ⟨hx, hu, hvs, hz⟩ := hf
  unfold optimizeT
  obtain ⟨m1, h1⟩ := onState_total h hp (.measure x0) hx trivial
  obtain ⟨k1, k2, k3, k4⟩ := onState_agrees h hp (op := .measure x0) hx h1
  rw [h1, ok_bind]
  obtain ⟨p, h2⟩ := (NlOpt.prepare_start k1.good k1.dims junk hx hu (o := m1.o) (by rw [k3]; exact h.zs)).exists_ok
  rw [h2, ok_bind]
  dsimp only
  obtain ⟨s, h3⟩ := visits_total (o := m1.o) k1 hp hr (by rw [k3]; exact h.obj) (by rw [k3]; exact h.groups)
    (fun k hk => by cases k <;> exact hk) id hvs
  obtain ⟨l1, l2⟩ := visits_ok k1 hp hvs h3
  rw [h3, ok_bind]
  have fin : ∀ s', s'.Holds (c.cfg.step (.measure x0)) → Kept m1.s s' → ∀ oc : NlOutcome K,
      (∀ z v k t, oc = .answered z v k t → z.size = d.ph * d.nx + d.nu * d.ch + 1) →
      ∃ q, finish { m1 with s := s', o := { m1.o with optVector := p.1 } } x0 junk oc = .ok q := by
    intro s' a1 a2 oc hoc
    obtain ⟨b1, b2⟩ := optimizeT_pre h hp hx h1 a1 a2 h2 oc
    have hf' : CallFits d (.optimize x0 u0 [] oc junk) := by
      refine ⟨hx, hu, by simp, ?_⟩
      cases oc with
      | threw => trivial
      | answered z v k t => exact hoc z v k t rfl
    obtain ⟨r, hr⟩ := optimize_total b1 hp hf' ⟨hr.obj, fun g hg => by have := hr.set g hg; revert this; cases g.kind <;> exact id, hr.dim⟩ heq
    rw [b2] at hr
    obtain ⟨q, hq, -⟩ := bind_eq_ok.1 hr
    exact ⟨q, hq⟩
  cases e with
  | solverThrows =>
    obtain ⟨q, hq⟩ := fin s l1 l2 .threw (by rintro _ _ _ _ ⟨⟩)
    dsimp only [conclude]
    rw [hq, ok_bind]
    exact ⟨_, rfl⟩
  | checkThrows z w =>
    obtain ⟨q, hq⟩ := fin (s.interrupted w) (NlState.interrupted_holds l1 w) ⟨l2.mp, l2.ti, l2.te⟩
      (.answered z (.fin 0) 0 true) (by rintro _ _ _ _ ⟨⟩; exact hz)
    dsimp only [conclude]
    rw [hq, ok_bind]
    exact ⟨_, rfl⟩
  | returns z v k =>
    obtain ⟨q, hq⟩ := fin s l1 l2 (.answered z v k false) (by rintro _ _ _ _ ⟨⟩; exact hz)
    dsimp only [conclude]
    rw [hq, ok_bind]
    exact ⟨_, rfl⟩
  | outputThrows z =>
    obtain ⟨q, hq⟩ := fin s l1 l2 (.answered z (.fin 0) 0 false) (by rintro _ _ _ _ ⟨⟩; exact hz)
    suffices hs : ∃ q, escape { m1 with s := s, o := { m1.o with optVector := p.1 } } x0 junk z = .ok q by
      obtain ⟨q, hs⟩ := hs
      dsimp only [conclude]
      rw [hs, ok_bind]
      exact ⟨_, rfl⟩
    unfold finish at hq
    dsimp only at hq
    rw [if_neg (by simp)] at hq
    obtain ⟨f, g1, hq⟩ := bind_eq_ok.1 hq
    unfold accept at hq
    dsimp only at hq
    obtain ⟨w, g2, hq⟩ := bind_eq_ok.1 hq
    obtain ⟨_, _, hq⟩ := bind_eq_ok.1 hq
    obtain ⟨st, g3, hq⟩ := bind_eq_ok.1 hq
    obtain ⟨inp, g4, hq⟩ := bind_eq_ok.1 hq
    unfold escape
    dsimp only
    rw [g1, ok_bind, g2, ok_bind, g3, ok_bind, g4, ok_bind]
    exact ⟨_, rfl⟩

theorem runT_total (hch : 0 < d.ch) (hle : d.ch ≤ d.ph) (hp : d.ph < 2 ^ 30) (hm : d.nZ ≤ 2 ^ 64)
    (junk : Nat → K) (dyn : Bool) (ops : List (NlTCall d K)) (hf : ∀ op ∈ ops, TCallFits d op)
    (ha : ∀ op ∈ ops, TAdmissible d dyn op) : ∃ r, runT d junk dyn ops = .ok r := by
  have hp' : d.ph < 2 ^ 31 := by omega
  induction ops using List.reverseRecOn with
  | nil =>
    obtain ⟨m, hm⟩ := (init_agrees hch hle hp' junk dyn).exists_ok
    unfold runT
    exact ⟨(m, []), by rw [List.foldl_nil, hm, ok_bind]; rfl⟩
  | append_singleton ops op ih =>
    obtain ⟨⟨m, outs⟩, h1⟩ := ih (fun o ho => hf o (by simp [ho])) (fun o ho => ha o (by simp [ho]))
    obtain ⟨h2, h3, h4⟩ := runT_agrees hch hle hp' hm (fun o ho => hf o (by simp [ho])) h1
    have hop := ha op (by simp)
    rw [runT_snoc, h1, ok_bind]
    have heq : (NlCtl.afterT d ops outs).cfg.eq.isSome = true → 0 < d.eq := by
      intro hs
      obtain ⟨F, tol, acc, hm⟩ := NlCtl.afterT_eq h4 hs
      have := ha (.call (.setEqConFunction F tol acc)) (by simp [hm])
      exact And.right this
    suffices hs : ∃ r, m.stepT op = .ok r by
      obtain ⟨r, hs⟩ := hs
      dsimp only
      rw [hs, ok_bind]
      exact ⟨_, rfl⟩
    cases op with
    | optimize x0 u0 vs e j => exact optimizeT_total h2 hp' (hf _ (by simp)) (NlCtl.afterT_bound _ _) heq
    | call op =>
      refine step_total h2 hp op (hf (.call op) (by simp)) ?_
      cases op with
      | setEqConFunction F tol acc => exact h3.trans hop.1
      | optimize x0 u0 cs oc j => exact ⟨NlCtl.afterT_bound _ _, heq⟩
      | setOptimizerParameters p => exact hop
      | setStateBoundsSlice l u s => exact hop
      | setInputBoundsSlice l u s => exact hop
      | _ => trivial

/-- ordinary histories are histories -/
theorem runT_call (junk : Nat → K) (dyn : Bool) (ops : List (NlCall d K)) :
    runT d junk dyn (ops.map .call) = run d junk dyn ops := by
  unfold runT run
  rw [List.foldl_map]
  rfl

end NlMpc

theorem afterT_last {α : Type} (π : NlCtl d K → α) (f : NlCall d K → Option α)
    (hs : ∀ c b op, π (NlCtl.step c b op) = (f op).getD (π c)) (ho : ∀ c x u oc, π (NlCtl.solved c x u oc) = π c)
    (he : ∀ c x u z, π (NlCtl.escaped c x u z) = π c) {ops : List (NlTCall d K)} : ∀ {outs : List (NlOut K)}
    (_ : outs.length = ops.length),
    π (NlCtl.afterT d ops outs) = (NlSpec.last f (NlSpec.settings ops)).getD (π (NlCtl.fresh d)) := by
  induction ops using List.reverseRecOn with
  | nil => intro outs _; rfl
  | append_singleton ops op ih =>
    intro outs hl
    rcases List.eq_nil_or_concat outs with rfl | ⟨outs', o, rfl⟩
    · simp at hl
    · have hl' : outs'.length = ops.length := by simpa using hl
      rw [List.concat_eq_append, NlCtl.afterT_snoc hl']
      cases op with
      | call op =>
        have e1 : NlSpec.settings (ops ++ [.call op]) = NlSpec.settings ops ++ [op] := by
          unfold NlSpec.settings; rw [List.filterMap_append]; rfl
        rw [e1, NlSpec.last_snoc, Option.getD_or', ← ih hl']
        exact hs _ _ _
      | optimize x0 u0 vs e j =>
        have e1 : NlSpec.settings (ops ++ [.optimize x0 u0 vs e j]) = NlSpec.settings ops := by
          unfold NlSpec.settings; rw [List.filterMap_append]; exact List.append_nil _
        rw [e1, ← ih hl']
        cases e with
        | outputThrows z => exact he _ _ _ _
        | solverThrows => exact ho (NlCtl.afterT d ops outs') x0.get u0.get .threw
        | checkThrows z w => exact ho (NlCtl.afterT d ops outs') x0.get u0.get (.answered z (.fin 0) 0 true)
        | returns z v k => exact ho (NlCtl.afterT d ops outs') x0.get u0.get (.answered z v k false)

theorem afterT_inScale {ops : List (NlTCall d K)} {outs : List (NlOut K)} (hl : outs.length = ops.length) :
    (NlCtl.afterT d ops outs).cfg.inScale = NlSpec.inScale (NlSpec.settings ops) :=
  afterT_last (fun c => c.cfg.inScale) NlSpec.inScaleOf (fun c b op => by call_cases op b)
    (fun c x u oc => by rw [NlMpc.solved_cfg]) (fun _ _ _ _ => rfl) hl

theorem afterT_stScale {ops : List (NlTCall d K)} {outs : List (NlOut K)} (hl : outs.length = ops.length) :
    (NlCtl.afterT d ops outs).cfg.stScale = NlSpec.stScale (NlSpec.settings ops) :=
  afterT_last (fun c => c.cfg.stScale) NlSpec.stScaleOf (fun c b op => by call_cases op b)
    (fun c x u oc => by rw [NlMpc.solved_cfg]) (fun _ _ _ _ => rfl) hl

end Mpc
