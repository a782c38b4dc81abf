import Verif.Spec.History
import Verif.Proofs.LinSnoc
import Verif.Proofs.QpGroups

/-
Induction over the history of a linear controller, and the invariants about results, parameters and vectors.
-/
namespace Mpc
open Exec
set_option linter.unusedSectionVars false
variable {K : Type} [Zero K] [One K] [Add K] [Mul K] [Neg K] [Div K] [NatCast K] [ExactOps K] [DecidableEq K]

/-- Induction on the history, last call at the end. -/
theorem configured_induct {d : Dims} {P : List (LOp K) → List (LOut K) → LMpc K → Prop}
    (hnil : ∀ u j m0, LMpc.new d u j = .ok m0 → P [] [] m0)
    (hsnoc : ∀ ops outs m op out m', Spec.Configured d ops outs m → P ops outs m → Spec.Sized d op → Spec.SliceNonneg op →
      m.step op = .ok (m', out) → P (ops ++ [op]) (outs ++ [out]) m') :
    ∀ {ops outs m}, Spec.Configured d ops outs m → P ops outs m := by
  intro ops
  induction ops using List.reverseRecOn with
  | nil =>
    intro outs m h
    obtain ⟨hv, hz, u, j, m0, h0, he⟩ := h
    cases he
    exact hnil u j _ h0
  | append_singleton ops op ih =>
    intro outs m h
    obtain ⟨hv, hz, u, j, m0, h0, he⟩ := h
    obtain ⟨m1, o1, o2, e1, e2, e3, e4⟩ := LMpc.exec_append_inv ops he
    simp only [LMpc.exec, bind_eq_ok] at e2
    obtain ⟨⟨m2, out⟩, h1, ⟨m3, o3⟩, h2, h3⟩ := e2
    cases h2
    cases h3
    subst e3
    have hc : Spec.Configured d ops o1 m1 :=
      ⟨hv, fun o ho => hz o (List.mem_append_left _ ho), u, j, m0, h0, e1⟩
    have hl := hz op (List.mem_append_right _ (List.mem_singleton.2 rfl))
    exact hsnoc ops o1 m1 op out _ hc (ih hc) hl.1 hl.2 h1

theorem latest_snoc {β : Type} (f : LOp K → LOut K → Option β) {ops : List (LOp K)} {outs : List (LOut K)}
    (h : outs.length = ops.length) (op : LOp K) (out : LOut K) :
    Spec.latest f (ops ++ [op]) (outs ++ [out]) = (f op out).or (Spec.latest f ops outs) := by
  unfold Spec.latest
  rw [List.zip_append h.symm, List.reverse_append]
  simp only [List.zip_cons_cons, List.zip_nil_right, List.reverse_singleton, List.singleton_append, List.findSome?_cons]
  cases f op out <;> rfl

/-- Every call returns what its kind returns. -/
theorem step_optimize_out {m m' : LMpc K} {x u : Vec K} {oc : OsqpOutcome K} {out : LOut K}
    (h : m.step (.optimize x u oc) = .ok (m', out)) : ∃ r call, out = .result r call := by
  simp only [LMpc.step, bind_eq_ok] at h
  obtain ⟨q, _, h⟩ := h
  cases h
  exact ⟨_, _, rfl⟩

/-- What the history determines of the optimizer. -/
structure Hist (d : Dims) (ops : List (LOp K)) (outs : List (LOut K)) (m : LMpc K) : Prop where
  cmd : m.o.result.cmd = Spec.latestCommand Spec.answeredResult d ops outs
  result : ∀ r, Spec.latest Spec.anyResult ops outs = some r → m.o.result = r
  result0 : Spec.latest Spec.anyResult ops outs = none →
    m.o.result = { cost := .fin 0, cmd := Vec.const d.nu 0 }
  params : m.o.params = Spec.latestParams ops outs
  vectors : (m.o.prevX, m.o.prevY) = Spec.latestVectors true d ops outs
  work : (Spec.optimized ops ∧ m.o.work = .freed) ∨
    (¬ Spec.optimized ops ∧ m.o.work = .null ∧ m.o.settings = .null ∧ m.o.data = .null)

theorem optimized_snoc {ops : List (LOp K)} {op : LOp K} (hno : ∀ x u oc, op ≠ LOp.optimize x u oc) :
    Spec.optimized (ops ++ [op]) ↔ Spec.optimized ops := by
  unfold Spec.optimized
  constructor
  · rintro ⟨x, u, oc, h⟩
    rcases List.mem_append.1 h with h | h
    · exact ⟨x, u, oc, h⟩
    · exact absurd (List.mem_singleton.1 h).symm (hno x u oc)
  · rintro ⟨x, u, oc, h⟩
    exact ⟨x, u, oc, List.mem_append_left _ h⟩

theorem Hist.setter {d : Dims} {ops : List (LOp K)} {outs : List (LOut K)} {m m' : LMpc K} {op : LOp K} {out : LOut K}
    (h : Hist d ops outs m) (hl : outs.length = ops.length) (hop : LMpc.IsSetter op = true)
    (hs : m.step op = .ok (m', out)) : Hist d (ops ++ [op]) (outs ++ [out]) m' := by
  obtain ⟨Y, U, D, M, he⟩ := LMpc.step_frame hop hs
  have hno : ∀ x u oc, op ≠ LOp.optimize x u oc := by rintro x u oc rfl; cases hop
  have e1 : Spec.answeredResult op out = none := by cases op <;> first | rfl | cases hop
  have e2 : Spec.anyResult op out = none := by cases op <;> first | rfl | cases hop
  have e3 : Spec.paramsOf op out = none := by cases op <;> first | rfl | cases hop
  have e4 : Spec.vectorsOf d true op out = none := by cases op <;> first | rfl | cases hop
  simp only at he
  obtain ⟨a1, a2, a3, a4, a5, a6⟩ := h
  refine ⟨?_, ?_, ?_, ?_, ?_, ?_⟩
  · rw [Spec.latestCommand, latest_snoc _ hl, e1, Option.none_or, he]; exact a1
  · rw [latest_snoc _ hl, e2, Option.none_or, he]; exact a2
  · rw [latest_snoc _ hl, e2, Option.none_or, he]; exact a3
  · rw [Spec.latestParams, latest_snoc _ hl, e3, Option.none_or, he]; exact a4
  · rw [Spec.latestVectors, latest_snoc _ hl, e4, Option.none_or, he]; exact a5
  · rw [he, optimized_snoc hno]; exact a6

theorem hist_of_configured {d : Dims} {ops : List (LOp K)} {outs : List (LOut K)} {m : LMpc K}
    (h : Spec.Configured d ops outs m) : Hist d ops outs m := by
  refine configured_induct (P := fun ops outs m => Hist d ops outs m) ?_ ?_ h
  · intro u j m0 h0
    simp only [LMpc.new, bind_eq_ok] at h0
    obtain ⟨b, _, h0⟩ := h0
    cases h0
    refine ⟨rfl, ?_, fun _ => rfl, rfl, rfl, ?_⟩
    · intro r hr; cases hr
    · exact .inr ⟨by rintro ⟨x, u, oc, h⟩; (cases h), rfl, rfl, rfl⟩
  · intro ops outs m op out m' hc hp hz hn hs
    have hl := configured_length hc
    by_cases hop : LMpc.IsSetter op = true
    · exact hp.setter hl hop hs
    · obtain ⟨a1, a2, a3, a4, a5, a6⟩ := hp
      cases op with
      | setOptimizerParameters p =>
        cases p with
        | other => cases hs
        | linear p =>
          cases hs
          refine ⟨?_, ?_, ?_, ?_, ?_, ?_⟩
          · rw [Spec.latestCommand, latest_snoc _ hl]; exact a1
          · rw [latest_snoc _ hl]; exact a2
          · rw [latest_snoc _ hl]; exact a3
          · rw [Spec.latestParams, latest_snoc _ hl]; rfl
          · rw [Spec.latestVectors, latest_snoc _ hl]; exact a5
          · rw [optimized_snoc (by intros; simp)]; exact a6
      | setSolverWarmStart x y =>
        cases hs
        refine ⟨?_, ?_, ?_, ?_, ?_, ?_⟩
        · rw [Spec.latestCommand, latest_snoc _ hl]; exact a1
        · rw [latest_snoc _ hl]; exact a2
        · rw [latest_snoc _ hl]; exact a3
        · rw [Spec.latestParams, latest_snoc _ hl]; exact a4
        · rw [Spec.latestVectors, latest_snoc _ hl]; rfl
        · rw [optimized_snoc (by intros; simp)]; exact a6
      | optimize x u oc =>
        obtain ⟨r, call, rfl⟩ := step_optimize_out hs
        obtain ⟨st, obj, sol, rfl, hv⟩ := solved_of_step hc.valid (configured_inv hc) hz.1 hz.2 hs
        have hres := hv.res
        have hopt := hv.opt
        have hw : Spec.optimized (ops ++ [.optimize x u (.answered st obj sol)]) :=
          ⟨x, u, .answered st obj sol, List.mem_append_right _ (List.mem_singleton.2 rfl)⟩
        rcases sol with _ | ⟨p, q⟩
        · simp only at hopt
          refine ⟨?_, ?_, ?_, ?_, ?_, ?_⟩
          · rw [Spec.latestCommand, latest_snoc _ hl, hopt]; exact a1
          · rw [latest_snoc _ hl]
            intro r' hr'
            have : r = r' := Option.some.inj hr'
            rw [← this, ← hres]
          · rw [latest_snoc _ hl]; intro h; cases h
          · rw [Spec.latestParams, latest_snoc _ hl, hopt]; exact a4
          · rw [Spec.latestVectors, latest_snoc _ hl, hopt]; exact a5
          · refine .inl ⟨hw, ?_⟩; rw [hopt]; rfl
        · obtain ⟨S, U, Y, -, hopt⟩ := hopt
          refine ⟨?_, ?_, ?_, ?_, ?_, ?_⟩
          · rw [Spec.latestCommand, latest_snoc _ hl, ← hres]; rfl
          · rw [latest_snoc _ hl]
            intro r' hr'
            have : r = r' := Option.some.inj hr'
            rw [← this, ← hres]
          · rw [latest_snoc _ hl]; intro h; cases h
          · rw [Spec.latestParams, latest_snoc _ hl, hopt]; exact a4
          · rw [Spec.latestVectors, latest_snoc _ hl, hopt]
            simp only [Spec.vectorsOf, Bool.true_or, if_true, Option.some_or, Option.getD_some]
            rw [Solved.varCount_eq, Solved.rowCount_eq]
          · refine .inl ⟨hw, ?_⟩; rw [hopt]; rfl
      | _ => exact absurd rfl hop

end Mpc

namespace Mpc
open Exec
variable {K : Type} [Zero K] [One K] [Add K] [Mul K] [Neg K] [Div K] [NatCast K] [ExactOps K] [DecidableEq K]

/-- Every safe history runs to the end. -/
theorem configured_of_safe {d : Dims} (hd : d.Valid) (hph : d.ph < 2 ^ 30) (hch : d.ch < 2 ^ 30) (ops : List (LOp K))
    (hs : ∀ op ∈ ops, (Spec.Sized d op ∧ Spec.SliceNonneg op) ∧ LMpc.Safe d op) :
    ∃ outs m, Spec.Configured d ops outs m ∧ LMpc.WarmSafe d m := by
  induction ops using List.reverseRecOn with
  | nil =>
    obtain ⟨m0, h0, hi⟩ := LMpc.new_inv hd (fun _ _ => (0 : K)) (fun _ => 0)
    exact ⟨[], m0, ⟨hd, by simp, _, _, m0, h0, rfl⟩, LMpc.new_warmSafe h0⟩
  | append_singleton ops op ih =>
    obtain ⟨outs, m, hm, hw⟩ := ih fun o ho => hs o (List.mem_append_left _ ho)
    have h0 := hs op (List.mem_append_right _ (List.mem_singleton.2 rfl))
    obtain ⟨⟨m1, o1⟩, h1⟩ := LMpc.step_total hd hph hch (configured_inv hm) hw h0.1.1 h0.1.2 h0.2
    exact ⟨outs ++ [o1], m1, configured_snoc hm h0.1 h1, LMpc.step_warm hd (configured_inv hm) hw h0.1.1 h0.2 h1⟩

/-- ... and can be asked afterwards. -/
theorem asked_of_safe {d : Dims} (hd : d.Valid) (hph : d.ph < 2 ^ 30) (hch : d.ch < 2 ^ 30) (ops : List (LOp K))
    (hs : ∀ op ∈ ops, (Spec.Sized d op ∧ Spec.SliceNonneg op) ∧ LMpc.Safe d op) {x0 u0 : Vec K} (hx : x0.size = d.nx)
    (hu : u0.size = d.nu) (st : Int) (obj : K) (sol : Option ((Nat → K) × (Nat → K))) :
    ∃ outs m m' r call, Spec.Asked d ops outs x0 u0 (.answered st obj sol) m m' r call := by
  obtain ⟨outs, m, hm, hw⟩ := configured_of_safe hd hph hch ops hs
  obtain ⟨⟨m', out⟩, h⟩ := LMpc.step_total (op := .optimize x0 u0 (.answered st obj sol)) hd hph hch
    (configured_inv hm) hw ⟨hx, hu⟩ (fun s hs => by cases hs) (by simp [LMpc.Safe])
  obtain ⟨r, call, rfl⟩ := step_optimize_out h
  exact ⟨outs, m, m', r, call, hm, hx, hu, h⟩

end Mpc
