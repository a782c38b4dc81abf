import Verif.Proofs.Setters2
import Verif.Proofs.Sparse

/-
`LOptimizer::run`: what is handed to OSQP, what is reported, and what happens to the pointers.
-/
namespace Mpc
open Exec

namespace LOpt
variable {K : Type} [Zero K] [One K] [Add K] [Mul K] [Neg K] [Div K] [NatCast K] [ExactOps K]

/-- Between two API calls no solver object is alive: either none was ever created, or all were freed. -/
def Idle (o : LOpt K) : Prop :=
  (o.work = .null ∧ o.settings = .null ∧ o.data = .null) ∨
  (o.work = .freed ∧ o.settings = .freed ∧ o.data = .freed)

/-- Everything that holds of the optimizer between two API calls. -/
structure Good (d : Dims) (o : LOpt K) (c : Spec.LinConfig K) : Prop where
  dims : o.d = d
  ySize : o.outSysRef.rows = d.ny ∧ o.outSysRef.cols = d.ph
  uSize : o.cmdSysRef.rows = d.nu ∧ o.cmdSysRef.cols = d.ph
  duSize : o.deltaCmdSysRef.rows = d.nu ∧ o.deltaCmdSysRef.cols = d.ph
  dSize : o.extInputMeas.rows = d.ndu ∧ o.extInputMeas.cols = d.ph
  yRef : ∀ a k, a < d.ny → k < d.ph → o.outSysRef.get a k = c.yRef k a
  uRef : ∀ a k, a < d.nu → k < d.ph → o.cmdSysRef.get a k = c.uRef k a
  duRef : ∀ a k, a < d.nu → k < d.ph → o.deltaCmdSysRef.get a k = c.duRef k a
  dist : ∀ a k, a < d.ndu → k < d.ph → o.extInputMeas.get a k = c.dist k a
  seqS : o.seqState.rows = d.ph + 1 ∧ o.seqState.cols = d.nx
  seqU : o.seqInput.rows = d.ph + 1 ∧ o.seqInput.cols = d.nu
  seqY : o.seqOutput.rows = d.ph + 1 ∧ o.seqOutput.cols = d.ny
  cmd : o.result.cmd.size = d.nu
  idle : o.Idle
  noLeak : o.leaked = 0

theorem onInit_good (d : Dims) (junk : Nat → Nat) :
    Good d (LOpt.onInit d junk : LOpt K) Spec.LinConfig.default :=
  ⟨rfl, ⟨rfl, rfl⟩, ⟨rfl, rfl⟩, ⟨rfl, rfl⟩, ⟨rfl, rfl⟩, fun _ _ _ _ => rfl, fun _ _ _ _ => rfl,
    fun _ _ _ _ => rfl, fun _ _ _ _ => rfl, ⟨rfl, rfl⟩, ⟨rfl, rfl⟩, ⟨rfl, rfl⟩, rfl, .inl ⟨rfl, rfl, rfl⟩, rfl⟩

/-- Input row `i` of the sequence is read from extended state `min (i+1) ph`. -/
def inputRow (ph i : Nat) : Nat := if i + 1 < ph + 1 then i + 1 else i

/-- What `extract` writes. -/
structure SeqSpec (d : Dims) (o : LOpt K) (b : Builder K) (x : Nat → K) (n : Nat) (S U Y : Mat K) : Prop where
  sizeS : S.rows = d.ph + 1 ∧ S.cols = d.nx
  sizeU : U.rows = d.ph + 1 ∧ U.cols = d.nu
  sizeY : Y.rows = d.ph + 1 ∧ Y.cols = d.ny
  state : ∀ i a, i < n → a < d.nx → S.get i a = x (i * (d.nu + d.nx) + a)
  input : ∀ i a, i < n → a < d.nu → U.get i a = x (inputRow d.ph i * (d.nu + d.nx) + (d.nx + a))
  output : ∀ i a, i < n → a < d.ny → Y.get i a =
    sumTo d.nx (fun e => b.ssC.get a e * x (i * (d.nu + d.nx) + e)) +
    sumTo d.ndu (fun e => b.ssDv.get a e * o.extInputMeas.get e (i - 1))

theorem extract_post {d : Dims} (hph : 0 < d.ph) {o : LOpt K} {b : Builder K} (ho : o.d = d)
    (hd : o.extInputMeas.rows = d.ndu ∧ o.extInputMeas.cols = d.ph)
    (hS : o.seqState.rows = d.ph + 1 ∧ o.seqState.cols = d.nx)
    (hU : o.seqInput.rows = d.ph + 1 ∧ o.seqInput.cols = d.nu)
    (hY : o.seqOutput.rows = d.ph + 1 ∧ o.seqOutput.cols = d.ny)
    (hb : b.Shaped) (hbd : b.d = d) {x : Vec K} (hx : d.nS ≤ x.size) :
    Post (o.extract b x) (fun r => SeqSpec d o b x.get (d.ph + 1) r.1 r.2.1 r.2.2) := by
  subst hbd
  have hnS : (b.d.ph + 1) * (b.d.nu + b.d.nx) = b.d.nS := rfl
  unfold extract
  simp only [ho, Nat.add_comm b.d.nx b.d.nu]
  refine Post.mono (forRange_post _ _ _ (fun n (r : Mat K × Mat K × Mat K) =>
    SeqSpec b.d o b x.get n r.1 r.2.1 r.2.2) ?_ ?_) (fun r h => h)
  · exact ⟨hS, hU, hY, by intros; omega, by intros; omega, by intros; omega⟩
  · rintro i ⟨S, U, Y⟩ hi ⟨h1, h2, h3, h4, h5, h6⟩
    simp only at h1 h2 h3 h4 h5 h6 ⊢
    have hend : i * (b.d.nu + b.d.nx) + (b.d.nu + b.d.nx) ≤ b.d.nS := block_end_le hi
    -- states
    refine Post.bind (Q := fun S' : Mat K => (S'.rows = b.d.ph + 1 ∧ S'.cols = b.d.nx) ∧
      (∀ a, a < b.d.nx → S'.get i a = x.get (i * (b.d.nu + b.d.nx) + a)) ∧
      ∀ k a, k ≠ i → S'.get k a = S.get k a) ?_ ?_
    · refine Post.mono (forRange_post _ _ _ (fun n (S' : Mat K) =>
        (S'.rows = b.d.ph + 1 ∧ S'.cols = b.d.nx) ∧
        (∀ a, a < n → S'.get i a = x.get (i * (b.d.nu + b.d.nx) + a)) ∧
        ∀ k a, k ≠ i → S'.get k a = S.get k a) ⟨h1, by intros; omega, by intros; rfl⟩ ?_) (fun _ h => h)
      rintro j S' hj ⟨g1, g2, g3⟩
      rw [Vec.at_ok (by omega)]
      simp only [ok_bind]
      rw [Mat.set_ok (by omega) (by omega)]
      refine post_ok ⟨g1, ?_, ?_⟩
      · intro a ha
        simp only [Mat.setRaw]
        by_cases e : a = j
        · subst e; simp
        · rw [if_neg (by simp [e])]; exact g2 a (by omega)
      · intro k a hk
        simp only [Mat.setRaw]
        rw [if_neg (by simp [hk])]; exact g3 k a hk
    · rintro S' ⟨g1, g2, g3⟩
      -- inputs
      refine Post.bind (Q := fun U' : Mat K => (U'.rows = b.d.ph + 1 ∧ U'.cols = b.d.nu) ∧
        (∀ a, a < b.d.nu → U'.get i a = x.get (inputRow b.d.ph i * (b.d.nu + b.d.nx) + (b.d.nx + a))) ∧
        ∀ k a, k ≠ i → U'.get k a = U.get k a) ?_ ?_
      · refine Post.mono (forFrom_post b.d.nx b.d.nu _ _ (fun n (U' : Mat K) =>
          (U'.rows = b.d.ph + 1 ∧ U'.cols = b.d.nu) ∧
          (∀ a, b.d.nx + a < n → U'.get i a = x.get (inputRow b.d.ph i * (b.d.nu + b.d.nx) + (b.d.nx + a))) ∧
          ∀ k a, k ≠ i → U'.get k a = U.get k a) ⟨h2, by intros; omega, by intros; rfl⟩ ?_)
          (fun _ h => ⟨h.1, fun a ha => h.2.1 a (by omega), h.2.2⟩)
        rintro j U' hj hj' ⟨f1, f2, f3⟩
        have hwrite : ∀ (v : K), v = x.get (inputRow b.d.ph i * (b.d.nu + b.d.nx) + j) →
            Post (U'.set i (j - b.d.nx) v) (fun U' : Mat K => (U'.rows = b.d.ph + 1 ∧ U'.cols = b.d.nu) ∧
            (∀ a, b.d.nx + a < j + 1 → U'.get i a = x.get (inputRow b.d.ph i * (b.d.nu + b.d.nx) + (b.d.nx + a))) ∧
            ∀ k a, k ≠ i → U'.get k a = U.get k a) := by
          intro v hv
          rw [Mat.set_ok (by omega) (by omega)]
          refine post_ok ⟨f1, ?_, ?_⟩
          · intro a ha
            simp only [Mat.setRaw]
            by_cases e : a = j - b.d.nx
            · subst e
              rw [if_pos (by simp), hv]
              congr 2; omega
            · rw [if_neg (by simp [e])]; exact f2 a (by omega)
          · intro k a hk
            simp only [Mat.setRaw]
            rw [if_neg (by simp [hk])]; exact f3 k a hk
        by_cases hlast : i + 1 < b.d.ph + 1
        · have hend' : (i + 1) * (b.d.nu + b.d.nx) + (b.d.nu + b.d.nx) ≤ b.d.nS := block_end_le hlast
          rw [if_pos hlast, Vec.at_ok (by omega)]
          simp only [ok_bind]
          refine hwrite _ ?_
          rw [inputRow, if_pos hlast]
        · rw [if_neg hlast, Vec.at_ok (by omega)]
          simp only [ok_bind]
          refine hwrite _ ?_
          rw [inputRow, if_neg hlast]
      · rintro U' ⟨f1, f2, f3⟩
        rw [Mat.row_ok (by omega)]
        simp only [ok_bind]
        rw [Mat.col_ok (by rw [hd.2]; split <;> omega)]
        simp only [ok_bind]
        unfold Builder.mapToOutput
        rw [Mat.block_ok (by rw [hb.ssC.1]; omega) (by rw [hb.ssC.2]; omega)]
        simp only [ok_bind]
        rw [Mat.mulVec_ok (by exact g1.2.symm)]
        simp only [ok_bind]
        rw [Mat.block_ok (by rw [hb.ssDv.1]; omega) (by rw [hb.ssDv.2]; omega)]
        simp only [ok_bind]
        rw [Mat.mulVec_ok (by exact hd.1.symm)]
        simp only [ok_bind]
        rw [Vec.add_ok (by rfl)]
        simp only [ok_bind]
        rw [Mat.setRow_ok (by omega) (by exact h3.2.symm)]
        refine post_pure ⟨g1, f1, h3, ?_, ?_, ?_⟩
        · intro k a hk ha
          by_cases e : k = i
          · subst e; exact g2 a ha
          · simp only; rw [g3 k a e]; exact h4 k a (by omega) ha
        · intro k a hk ha
          by_cases e : k = i
          · subst e; exact f2 a ha
          · simp only; rw [f3 k a e]; exact h5 k a (by omega) ha
        · intro k a hk ha
          simp only [Mat.setRowRaw_get]
          by_cases e : k = i
          · subst e
            rw [if_pos rfl]
            simp only [Nat.zero_add]
            congr 1
            · refine sumTo_congr fun q hq => ?_
              rw [g2 q hq]
            · refine sumTo_congr fun q hq => ?_
              congr 2
              split <;> omega
          · rw [if_neg e]; exact h6 k a (by omega) ha

/-- Freeing everything that `run` allocated. -/
theorem clearData_live {o : LOpt K} (h1 : o.work = .live) (h2 : o.settings = .live) (h3 : o.data = .live)
    (h4 : o.dataP = .live) (h5 : o.dataA = .live) :
    o.clearData = .ok { o with work := .freed, data := .freed, dataA := .freed, dataP := .freed, settings := .freed } := by
  unfold clearData
  rw [h1, h2, h3, h4, h5]
  rfl

/-- The warm start handed to OSQP. -/
def warmOf (o : LOpt K) : Option (Vec K × Vec K) :=
  if o.params.enable_warm_start = true ∧ 0 < o.prevX.size ∧ 0 < o.prevY.size then some (o.prevX, o.prevY) else none

/-- The stored warm-start vectors are long enough for a problem of this size, if they are used. -/
def WarmFits (d : Dims) (o : LOpt K) : Prop :=
  (o.params.enable_warm_start = true ∧ 0 < o.prevX.size ∧ 0 < o.prevY.size) →
    d.nV ≤ o.prevX.size ∧ d.nC ≤ o.prevY.size

/-- The problem handed to OSQP, in terms of the builder's members after `get`. -/
structure CallSpec (d : Dims) (o : LOpt K) (b' : Builder K) [DecidableEq K] (call : OsqpCall K) : Prop where
  n : call.n = d.nV
  m : call.m = d.nC
  P : CscOf (getSparse b'.P b'.A).1 call.P
  A : CscOf (getSparse b'.P b'.A).2 call.A
  q : call.q = b'.q
  l : call.l = b'.l
  u : call.u = b'.u
  settings : call.settings = o.params.toSettings
  warm : call.warm = o.warmOf

/-- The state of the optimizer after a run, apart from sequences, result and warm-start vectors. -/
def released (o : LOpt K) : LOpt K :=
  { o with work := .freed, settings := .freed, data := .freed, dataP := .freed, dataA := .freed }

variable [DecidableEq K]

/-- A run in which OSQP answers. -/
theorem run_post {d : Dims} (hph : 0 < d.ph) {o : LOpt K} {b : Builder K} {c : Spec.LinConfig K} (ho : Good d o c)
    (hb : b.Shaped) (hbd : b.d = d) {x0 u0 : Vec K} (hx0 : x0.size = d.nx) (hu0 : u0.size = d.nu)
    {status : Int} {obj : K} {sol : Option ((Nat → K) × (Nat → K))} (hw : WarmFits d o) :
    Post (o.run b x0 u0 (.answered status obj sol)) (fun r =>
      b.GetSpec x0 u0 o.outSysRef o.cmdSysRef o.deltaCmdSysRef o.extInputMeas r.2.1 ∧
      CallSpec d o r.2.1 r.2.2 ∧
      match sol with
      | none => r.1 = { o.released with
          seqState := Mat.const (d.ph + 1) d.nx 0
          seqInput := Mat.const (d.ph + 1) d.nu 0
          seqOutput := Mat.const (d.ph + 1) d.ny 0
          result := { solver_status := -1, is_feasible := false, cost := .posInf, status := .ERROR,
                      cmd := o.result.cmd } }
      | some (x, y) => ∃ S U Y, SeqSpec d o r.2.1 x (d.ph + 1) S U Y ∧
          r.1 = { o.released with
            prevX := ⟨d.nV, x⟩, prevY := ⟨d.nC, y⟩, seqState := S, seqInput := U, seqOutput := Y
            result := { solver_status := status, is_feasible := osqpFeasible status, cost := .fin obj,
                        status := convertOsqpStatus status, cmd := ⟨d.nu, fun j => U.get 0 j⟩ } }) := by
  subst hbd
  have hV : b.d.nS ≤ b.d.nV := by simp only [Dims.nV, Dims.nS]; omega
  unfold run
  refine Post.bind (b.get_post hb ⟨hx0, hu0, ho.ySize, ho.uSize, ho.duSize, ho.dSize⟩ hph) ?_
  intro b' hg
  have hbd' : b'.d = b.d := hg.same.d
  have hsh := hg.shaped
  have hl1 : leak o.settings = 0 := by
    rcases ho.idle with ⟨_, h, _⟩ | ⟨_, h, _⟩ <;> rw [h] <;> rfl
  have hl2 : leak o.data = 0 := by
    rcases ho.idle with ⟨_, _, h⟩ | ⟨_, _, h⟩ <;> rw [h] <;> rfl
  have hl3 : leak o.work = 0 := by
    rcases ho.idle with ⟨h, _, _⟩ | ⟨h, _, _⟩ <;> rw [h] <;> rfl
  have hPr : (getSparse b'.P b'.A).1.rows = b.d.nV := by
    have := hsh.P.1; rw [hbd'] at this; exact this
  have hAr : (getSparse b'.P b'.A).2.rows = b.d.nC := by
    have := hsh.A.1; rw [hbd'] at this; exact this
  rcases hgs : getSparse b'.P b'.A with ⟨P, A⟩
  rw [hgs] at hPr hAr
  simp only at hPr hAr
  simp only [initData, ne_eq, not_true_eq_false, decide_false, hPr, hAr, hl1, hl2]
  obtain ⟨cP, heP, rP, rfl, hcP⟩ := createOsqp_post P o.junk o.junk (fun k => b'.uninit k 3)
  obtain ⟨cA, heA, rA, rfl, hcA⟩ := createOsqp_post A o.junk o.junk (fun k => b'.uninit k 4)
  rw [heP]
  simp only [ok_bind]
  rw [heA]
  simp only [ok_bind]
  have hu : (o.params.toSettings.warm_start ≠ 0 ∧ 0 < o.prevX.size ∧ 0 < o.prevY.size) ↔
      (o.params.enable_warm_start = true ∧ 0 < o.prevX.size ∧ 0 < o.prevY.size) := by
    refine and_congr_left fun _ => ?_
    simp only [LParams.toSettings]
    cases o.params.enable_warm_start <;> simp
  have hwarm : (if (o.params.toSettings.warm_start ≠ 0 ∧ 0 < o.prevX.size ∧ 0 < o.prevY.size) then
      some (o.prevX, o.prevY) else none) = o.warmOf := by
    unfold warmOf
    exact if_congr hu rfl rfl
  rw [require_ok (by decide)]
  simp only [ok_bind]
  rw [require_ok (by
    by_cases h : (o.params.toSettings.warm_start ≠ 0 ∧ 0 < o.prevX.size ∧ 0 < o.prevY.size)
    · exact .inr (hw (hu.mp h))
    · exact .inl (fun h' => h h'.1))]
  simp only [ok_bind]
  rw [require_ok (by trivial)]
  simp only [ok_bind]
  have hcall : CallSpec b.d o b' ⟨b.d.nV, b.d.nC, rP, b'.q, rA, b'.l, b'.u, o.params.toSettings,
      if (o.params.toSettings.warm_start ≠ 0 ∧ 0 < o.prevX.size ∧ 0 < o.prevY.size) then
      some (o.prevX, o.prevY) else none⟩ :=
    ⟨rfl, rfl, by rw [hgs]; exact hcP, by rw [hgs]; exact hcA, rfl, rfl, rfl, rfl, hwarm⟩
  rcases sol with _ | ⟨x, y⟩
  · simp only [pure_bind']
    rw [clearData_live (by rfl) (by rfl) (by rfl) (by rfl) (by rfl)]
    simp only [ok_bind]
    refine post_pure ⟨hg, hcall, ?_⟩
    simp only [released, ho.seqS.1, ho.seqS.2, ho.seqU.1, ho.seqU.2, ho.seqY.1, ho.seqY.2, hl3, Nat.add_zero]
  · refine Post.bind (Q := fun o' => ∃ S U Y, SeqSpec b.d o b' x (b.d.ph + 1) S U Y ∧ o' = { o with
      leaked := o.leaked, work := .live, settings := .live, data := .live, dataP := .live, dataA := .live
      prevX := ⟨b.d.nV, x⟩, prevY := ⟨b.d.nC, y⟩, seqState := S, seqInput := U, seqOutput := Y
      result := { solver_status := status, is_feasible := osqpFeasible status, cost := .fin obj,
                  status := convertOsqpStatus status, cmd := ⟨b.d.nu, fun j => U.get 0 j⟩ } }) ?_ ?_
    · refine Post.bind (extract_post (d := b.d) hph (by exact ho.dims) (by exact ho.dSize) (by exact ho.seqS)
        (by exact ho.seqU) (by exact ho.seqY) hsh hbd' (by exact hV)) ?_
      rintro ⟨S, U, Y⟩ h
      simp only
      have h2 := h.sizeU
      simp only at h2
      rw [Mat.row_ok (by omega)]
      refine post_pure ⟨S, U, Y, ⟨h.sizeS, h.sizeU, h.sizeY, h.state, h.input, h.output⟩, ?_⟩
      simp only [hl3, Nat.add_zero, h2.2]
    · rintro o' ⟨S, U, Y, hs, rfl⟩
      rw [clearData_live (by rfl) (by rfl) (by rfl) (by rfl) (by rfl)]
      simp only [ok_bind]
      exact post_pure ⟨hg, hcall, S, U, Y, hs, rfl⟩

end LOpt
end Mpc
