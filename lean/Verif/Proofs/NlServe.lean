import Verif.Proofs.NlDynEval
import Verif.Proofs.NlRun

/-
The callbacks of the solver: they never fault, and the solver reads what the evaluations returned.
-/
namespace Mpc
open Exec
set_option linter.unusedSectionVars false

variable {d : Dims} {K : Type} [Field K] [LinearOrder K] [IsStrictOrderedRing K]

theorem Exec.Post.exists_ok {α : Type} {e : Exec α} {Q : α → Prop} (h : Post e Q) : ∃ a, e = .ok a :=
  let ⟨a, ha, _⟩ := h; ⟨a, ha⟩

/-- number of components of a constraint -/
def NlGroupKind.dim (d : Dims) : NlGroupKind → Nat
  | .dynamics => d.ph * d.nx
  | .userIneq => d.ineq
  | .userEq => d.eq

/-- the function behind a constraint has been set -/
def NlGroupKind.Set (c : NlSpec.Cfg d K) : NlGroupKind → Prop
  | .dynamics => c.field.isSome = true
  | .userIneq => c.ineq.isSome = true
  | .userEq => c.eq.isSome = true

/-- whatever is bound to the solver has been set, with the right number of tolerances -/
structure NlCtl.Bound (c : NlCtl d K) : Prop where
  obj : c.obj = true → c.cfg.obj.isSome = true
  set : ∀ g ∈ c.groups, g.kind.Set c.cfg
  dim : ∀ g ∈ c.groups, g.tol.size = g.kind.dim d

namespace NlCtl

theorem fresh_bound : (NlCtl.fresh d : NlCtl d K).Bound :=
  ⟨(fun h => nomatch h), (fun _ h => nomatch h), (fun _ h => nomatch h)⟩

/-- a further group -/
theorem Bound.add {c : NlCtl d K} (h : c.Bound) {f : NlSpec.Cfg d K} {k : NlGroupKind} {tol ti te : K} {acc : Bool}
    (ho : f.obj = c.cfg.obj) (hs : ∀ g : NlGroupKind, g.Set c.cfg → g.Set f) (hk : k.Set f) :
    Bound { c with
      cfg := f, ti := ti, te := te, groups := if acc then c.groups ++ [⟨k, Vec.const (k.dim d) tol⟩] else c.groups } := by
  have hm : ∀ g ∈ (if acc then c.groups ++ [⟨k, Vec.const (k.dim d) tol⟩] else c.groups), g ∈ c.groups ∨
      g = ⟨k, Vec.const (k.dim d) tol⟩ := by
    intro g hg
    cases acc with
    | false => exact .inl hg
    | true =>
      rcases List.mem_append.1 hg with h | h
      · exact .inl h
      · exact .inr (List.mem_singleton.1 h)
  refine ⟨fun e => by rw [ho]; exact h.obj e, fun g hg => ?_, fun g hg => ?_⟩
  · rcases hm g hg with h1 | rfl
    · exact hs _ (h.set g h1)
    · exact hk
  · rcases hm g hg with h1 | rfl
    · exact h.dim g h1
    · rfl

theorem Bound.step {c : NlCtl d K} (h : c.Bound) (b : Bool) (op : NlCall d K) : (c.step b op).Bound := by
  cases op with
  | setOptimizerParameters p => cases p <;> exact ⟨h.obj, h.set, h.dim⟩
  | setObjectiveFunction f acc =>
    exact ⟨fun _ => rfl, fun g hg => by have := h.set g hg; revert this; cases g.kind <;> exact id, h.dim⟩
  | setStateSpaceFunction F tol acc =>
    refine h.add (ti := c.ti) (te := c.te) (k := .dynamics) rfl (fun g hg => ?_) rfl
    cases g <;> first | rfl | exact hg
  | setIneqConFunction F tol acc =>
    refine h.add (te := c.te) (k := .userIneq) rfl (fun g hg => ?_) rfl
    cases g <;> first | rfl | exact hg
  | setEqConFunction F tol acc =>
    refine h.add (ti := c.ti) (k := .userEq) rfl (fun g hg => ?_) rfl
    cases g <;> first | rfl | exact hg
  | setStateBoundsSlice l u s => cases b <;> exact ⟨h.obj, h.set, h.dim⟩
  | setInputBoundsSlice l u s => cases b <;> exact ⟨h.obj, h.set, h.dim⟩
  | optimize x0 u0 cs oc j =>
    rcases oc with _ | ⟨z, v, k, _ | _⟩ <;>
    exact ⟨h.obj, fun g hg => by have := h.set g hg; revert this; cases g.kind <;> exact id, h.dim⟩
  | _ => exact ⟨h.obj, fun g hg => by have := h.set g hg; revert this; cases g.kind <;> exact id, h.dim⟩

end NlCtl

/-- the evaluation behind a constraint -/
def NlState.evalCon (s : NlState d K) (z : Vec K) (g : Bool) (junk : Nat → K) : NlGroupKind → Exec (ConCost K × NlState d K)
  | .dynamics => s.evalDyn z g junk
  | .userIneq => s.evalIneq z junk
  | .userEq => s.evalEq z junk

namespace NlMpc

theorem evalCon_ok {s : NlState d K} {c : NlSpec.Cfg d K} (h : s.Holds c) (hp : d.ph < 2 ^ 31) {k : NlGroupKind}
    (hk : k.Set c) {z : Vec K} (hz : z.size = d.nZ) (g : Bool) (junk : Nat → K) :
    ∃ r s', s.evalCon z g junk k = .ok (r, s') ∧ r.value.size = k.dim d ∧ r.grad.size = k.dim d * d.nZ := by
  cases k with
  | dynamics =>
    obtain ⟨F, hf⟩ := Option.isSome_iff_exists.1 hk
    obtain ⟨⟨r, s'⟩, e, h1, h2, -⟩ := NlState.evalDyn_post h hp hf z hz g junk
    exact ⟨r, s', e, h1, h2.trans (Nat.mul_comm _ _)⟩
  | userIneq =>
    obtain ⟨F, hf⟩ := Option.isSome_iff_exists.1 hk
    obtain ⟨⟨r, s'⟩, e, h1, h2, -⟩ := NlState.evalIneq_post h hp hf z hz junk
    exact ⟨r, s', e, h1, h2.trans (Nat.mul_comm _ _)⟩
  | userEq =>
    obtain ⟨F, hf⟩ := Option.isSome_iff_exists.1 hk
    obtain ⟨⟨r, s'⟩, e, h1, h2, -⟩ := NlState.evalEq_post h hf z hz junk
    exact ⟨r, s', e, h1, h2.trans (Nat.mul_comm _ _)⟩

theorem memcpy_ok {dst src : Vec K} (h : src.size = dst.size) :
    ∃ v, dst.memcpy src = .ok v ∧ v.size = dst.size ∧ ∀ i, i < dst.size → v.get i = src.get i := by
  unfold Vec.memcpy
  rw [require_ok (by omega), ok_bind]
  exact ⟨_, rfl, rfl, fun i hi => if_pos (by omega)⟩

/-- a callback of a constraint -/
theorem serve_con {o : NlOpt K} {s : NlState d K} {c : NlSpec.Cfg d K} (h : s.Holds c) (hp : d.ph < 2 ^ 31) {i : Nat}
    {grp : NlGroup K} (hg : o.groups[i]? = some grp) (hk : grp.kind.Set c) (hd : grp.tol.size = grp.kind.dim d) {z : Vec K}
    (hz : z.size = d.nZ) (g : Bool) (junk : Nat → K) :
    ∃ r s' b, s.evalCon z g junk grp.kind = .ok (r, s') ∧ serve o s (.con i z g junk) = .ok (some (.con b), s') ∧
      b.value.size = grp.tol.size ∧ (∀ j, j < grp.tol.size → b.value.get j = r.value.get j) ∧
      (g = false → b.grad = none) ∧
      (g = true → ∃ G, b.grad = some G ∧ G.size = grp.tol.size * d.nZ ∧ ∀ j, j < grp.tol.size * d.nZ → G.get j = r.grad.get j) := by
  obtain ⟨r, s', e, h1, h2⟩ := evalCon_ok h hp hk hz g junk
  obtain ⟨v, ev, sv, gv⟩ := memcpy_ok (dst := ⟨grp.tol.size, junk⟩) (src := r.value) (h1.trans hd.symm)
  obtain ⟨w, ew, sw, gw⟩ := memcpy_ok (dst := ⟨grp.tol.size * d.nZ, junk⟩) (src := r.grad) (by rw [h2, hd])
  have key : ∀ b0 b : NlBuffers K, b0.grad.isSome = g → b0.write r = .ok b →
      s.conWrapper grp.kind b0 z junk = .ok (b, s') := by
    intro b0 b hs hb
    cases hk' : grp.kind
    all_goals
      rw [hk'] at e
      simp only [NlState.evalCon] at e
      simp only [NlState.conWrapper, NlState.eqConWrapper, NlState.userIneqWrapper, NlState.userEqWrapper]
      first
        | rw [hs, e, ok_bind, hb, ok_bind]
        | rw [e, ok_bind, hb, ok_bind]
      rfl
  cases g with
  | false =>
    refine ⟨r, s', ⟨v, none⟩, e, ?_, sv, gv, fun _ => rfl, fun h => nomatch h⟩
    unfold serve
    simp only [hg, Bool.false_eq_true, if_false]
    rw [key ⟨⟨grp.tol.size, junk⟩, none⟩ ⟨v, none⟩ rfl (by unfold NlBuffers.write; rw [ev, ok_bind]; rfl)]
    rfl
  | true =>
    refine ⟨r, s', ⟨v, some w⟩, e, ?_, sv, gv, (fun h => nomatch h), fun _ => ⟨w, rfl, sw, gw⟩⟩
    unfold serve
    simp only [hg, if_true]
    rw [key ⟨⟨grp.tol.size, junk⟩, some ⟨grp.tol.size * d.nZ, junk⟩⟩ ⟨v, some w⟩ rfl (by
      unfold NlBuffers.write; rw [ev, ok_bind]; dsimp only; rw [ew, ok_bind]; rfl)]
    rfl

/-- a callback of the objective -/
theorem serve_obj {o : NlOpt K} {s : NlState d K} {c : NlSpec.Cfg d K} (h : s.Holds c) (hp : d.ph < 2 ^ 31)
    (ho : o.objective = true) (hk : c.obj.isSome = true) {z : Vec K} (hz : z.size = d.nZ) (g : Bool) (junk : Nat → K) :
    ∃ r s' G, s.evalObj z g = .ok (r, s') ∧ serve o s (.obj z g junk) = .ok (some (.obj r.value G), s') ∧
      (g = false → G.size = 0) ∧
      (g = true → ∃ G', r.grad = some G' ∧ G.size = d.nZ ∧ ∀ j, j < d.nZ → G.get j = G'.get j) := by
  obtain ⟨f, hf⟩ := Option.isSome_iff_exists.1 hk
  obtain ⟨⟨r, s'⟩, e, -, hg⟩ := NlState.evalObj_post h hp hf z hz g
  have hn : d.nZ ≠ 0 := by unfold Dims.nZ; omega
  cases g with
  | false =>
    refine ⟨r, s', ⟨0, junk⟩, e, ?_, fun _ => rfl, fun h => nomatch h⟩
    unfold serve
    simp only [ho, if_true]
    unfold NlState.objWrapper
    simp [e]
  | true =>
    obtain ⟨G', -, -, -, hG, hs, -⟩ := hg
    dsimp only at hG
    obtain ⟨w, ew, sw, gw⟩ := memcpy_ok (dst := ⟨d.nZ, junk⟩) (src := G') hs
    refine ⟨r, s', w, e, ?_, (fun h => nomatch h), fun _ => ⟨G', hG, sw, gw⟩⟩
    unfold serve
    simp only [ho, if_true]
    unfold NlState.objWrapper
    simp [e, hn, hG, ew]

theorem callbacks_total {o : NlOpt K} {s : NlState d K} {c : NlCtl d K} {f : NlSpec.Cfg d K} (h : s.Holds f)
    (hp : d.ph < 2 ^ 31) (hb : c.Bound) (hobj : o.objective = c.obj) (hgr : o.groups = c.groups)
    (hs : ∀ k : NlGroupKind, k.Set c.cfg → k.Set f) (hso : c.cfg.obj.isSome = true → f.obj.isSome = true)
    {cs : List (NlCallback K)} (hf : ∀ k ∈ cs, NlSpec.CallbackFits d k) : ∃ s', callbacks o s cs = .ok s' := by
  induction cs using List.reverseRecOn with
  | nil => exact ⟨s, rfl⟩
  | append_singleton l k ih =>
    obtain ⟨s1, h1⟩ := ih (fun k hk => hf k (by simp [hk]))
    obtain ⟨g1, -⟩ := callbacks_ok h hp (fun k hk => hf k (by simp [hk])) h1
    have hk := hf k (by simp)
    suffices hs : ∃ r, serve o s1 k = .ok r by
      obtain ⟨r, hs⟩ := hs
      refine ⟨r.2, ?_⟩
      unfold callbacks at h1 ⊢
      rw [List.foldl_append, h1]
      show ((Except.ok s1 : Exec (NlState d K)) >>= fun s => serve o s k >>= fun r => pure r.2) = _
      rw [ok_bind, hs]
      rfl
    cases k with
    | obj z g junk =>
      by_cases ho : o.objective = true
      · obtain ⟨r, s', G, -, e, -⟩ := serve_obj g1 hp ho (hso (hb.obj (by rw [← hobj]; exact ho))) hk g junk
        exact ⟨_, e⟩
      · unfold serve
        simp [ho]
    | con i z g junk =>
      cases hg : o.groups[i]? with
      | none => unfold serve; simp [hg]
      | some grp =>
        have hm : grp ∈ c.groups := by rw [← hgr]; exact List.mem_of_getElem? hg
        obtain ⟨r, s', b, -, e, -⟩ := serve_con g1 hp hg (hs _ (hb.set _ hm)) (hb.dim _ hm) hk g junk
        exact ⟨_, e⟩

end NlMpc
end Mpc
