import Verif.Proofs.LinStep
import Verif.Proofs.QpRows

/-
Every configuration is held by some controller, and every configured problem can be put to OSQP. Used to compare the problem a
controller hands to OSQP with the one of an idealised controller.
-/
namespace Mpc
open Exec
set_option linter.unusedSectionVars false

variable {K : Type} [Zero K] [One K] [Add K] [Mul K] [Neg K] [Div K] [NatCast K] [ExactOps K] [DecidableEq K]

/-- a builder holding a configuration, before its cached terms are computed -/
def Builder.holding (d : Dims) (c : Spec.LinConfig K) : Builder K :=
  { Builder.blank d (fun _ _ => 0) with
    ssA := ⟨d.nu + d.nx, d.nu + d.nx, fun a e => if a < d.nx then (if e < d.nx then c.A a e else c.B a (e - d.nx))
      else if e < d.nx then 0 else if c.modelSet = true ∧ a - d.nx = e - d.nx then 1 else 0⟩
    ssB := ⟨d.nu + d.nx, d.nu, fun a e => if a < d.nx then c.B a e else if c.modelSet = true ∧ a - d.nx = e then 1 else 0⟩
    ssC := ⟨d.nu + d.ny, d.nu + d.nx, fun a e => if a < d.ny then (if e < d.nx then c.C a e else 0)
      else if e < d.nx then 0 else if c.modelSet = true ∧ a - d.ny = e - d.nx then 1 else 0⟩
    ssBv := ⟨d.nu + d.nx, d.ndu, fun a e => if a < d.nx then c.Bd a e else 0⟩
    ssDv := ⟨d.nu + d.ny, d.ndu, fun a e => if a < d.ny then c.Dd a e else 0⟩
    wOutput := ⟨d.ny, d.ph + 1, fun a k => c.wY (k - 1) a⟩
    wU := ⟨d.nu, d.ph + 1, fun a k => c.wU (k - 1) a⟩
    wDeltaU := ⟨d.nu, d.ph, fun a k => c.wDu k a⟩
    minX := ⟨d.nx, d.ph + 1, fun a k => c.xMin (k - 1) a⟩
    maxX := ⟨d.nx, d.ph + 1, fun a k => c.xMax (k - 1) a⟩
    minY := ⟨d.ny, d.ph + 1, fun a k => c.yMin (k - 1) a⟩
    maxY := ⟨d.ny, d.ph + 1, fun a k => c.yMax (k - 1) a⟩
    minU := ⟨d.nu, d.ph, fun a k => c.uMin k a⟩
    maxU := ⟨d.nu, d.ph, fun a k => c.uMax k a⟩
    sMin := ⟨d.ph + 1, fun k => c.sMin (k - 1)⟩
    sMax := ⟨d.ph + 1, fun k => c.sMax (k - 1)⟩
    sMultiplier := ⟨d.ph + 1, (d.ph + 1) * (d.nu + d.nx), fun i k => if i = k / (d.nu + d.nx) then
      (if k % (d.nu + d.nx) < d.nx then c.sX (k % (d.nu + d.nx)) else c.sU (k % (d.nu + d.nx) - d.nx)) else 0⟩ }

theorem Builder.holding_shaped (d : Dims) (c : Spec.LinConfig K) : (Builder.holding d c).Shaped := by
  have hI : (Builder.holding d c).d = d := rfl
  constructor <;> first
    | exact ⟨rfl, rfl⟩
    | rfl
    | (constructor <;> simp [Builder.holding, Builder.blank, Dims.nV, Dims.nC, Dims.nI, Dims.nS, Dims.nY, Dims.nD] <;> ring_nf)
    | (simp [Builder.holding, Builder.blank, Dims.nV, Dims.nC, Dims.nI, Dims.nS, Dims.nY, Dims.nD] ; try ring_nf)

theorem Builder.holding_repr (d : Dims) (c : Spec.LinConfig K) : (Builder.holding d c).Repr c := by
  constructor <;> dsimp only [Builder.holding, Builder.blank]
  · intro a e ha he; rw [if_pos ha, if_pos he]
  · intro a e ha he; rw [if_pos ha, if_neg (by omega), Nat.add_sub_cancel_left]
  · intro a e ha he; rw [if_neg (by omega), if_pos he]
  · intro a e ha he; rw [if_neg (by omega), if_neg (by omega), Nat.add_sub_cancel_left, Nat.add_sub_cancel_left]
  · intro a e ha he; rw [if_pos ha]
  · intro a e ha he; rw [if_neg (by omega), Nat.add_sub_cancel_left]
  · intro a e ha he; rw [if_pos ha, if_pos he]
  · intro a e ha he; rw [if_pos ha, if_neg (by omega)]
  · intro a e ha he; rw [if_neg (by omega), if_pos he]
  · intro a e ha he; rw [if_neg (by omega), if_neg (by omega), Nat.add_sub_cancel_left, Nat.add_sub_cancel_left]
  · intro a e ha he; rw [if_pos ha]
  · intro a e ha he; rw [if_neg (by omega)]
  · intro a e ha he; rw [if_pos ha]
  · intro a e ha he; rw [if_neg (by omega)]
  · intro a k ha hk; rfl
  · intro a k ha hk; rfl
  · intro a k ha hk; rfl
  · intro a k ha hk; rfl
  · intro a k ha hk; rfl
  · intro a k ha hk; rfl
  · intro a k ha hk; rfl
  · intro a k ha hk; rfl
  · intro a k ha hk; rfl
  · intro k hk; rfl
  · intro k hk; rfl
  · intro i j a hi hj ha
    rw [block_div _ ha, block_mod _ ha]
    rfl

/-- Every configuration is held by some controller. -/
theorem LMpc.exists_inv {d : Dims} (hd : d.Valid) (c : Spec.LinConfig K) :
    ∃ m : LMpc K, LMpc.Inv d m c ∧ m.o.prevX.size = 0 := by
  obtain ⟨r, -, -, hs, hsh, hde⟩ := Builder.build_post (Builder.holding d c) (Builder.holding_shaped d c) hd.ph_pos
  refine ⟨⟨d, r.1, { LOpt.onInit d (fun _ => 0) with
    outSysRef := ⟨d.ny, d.ph, fun a k => c.yRef k a⟩
    cmdSysRef := ⟨d.nu, d.ph, fun a k => c.uRef k a⟩
    deltaCmdSysRef := ⟨d.nu, d.ph, fun a k => c.duRef k a⟩
    extInputMeas := ⟨d.ndu, d.ph, fun a k => c.dist k a⟩ }⟩, ⟨rfl, ⟨hs.d, hsh, hde, (Builder.holding_repr d c).of_same hs⟩, ?_⟩, rfl⟩
  exact ⟨rfl, ⟨rfl, rfl⟩, ⟨rfl, rfl⟩, ⟨rfl, rfl⟩, ⟨rfl, rfl⟩, fun _ _ _ _ => rfl, fun _ _ _ _ => rfl, fun _ _ _ _ => rfl,
    fun _ _ _ _ => rfl, ⟨rfl, rfl⟩, ⟨rfl, rfl⟩, ⟨rfl, rfl⟩, rfl, .inl ⟨rfl, rfl, rfl⟩, rfl⟩

/-- Every configured problem can be put to OSQP. -/
theorem Solved.exists {d : Dims} (hd : d.Valid) (c : Spec.LinConfig K) {x0 u0 : Vec K} (hx : x0.size = d.nx)
    (hu : u0.size = d.nu) (st : Int) (obj : K) (sol : Option ((Nat → K) × (Nat → K))) :
    ∃ (m m' : LMpc K) (r : LResult K) (call : OsqpCall K), Solved d c x0 u0 st obj sol m m' r call := by
  obtain ⟨m, hm, h0⟩ := LMpc.exists_inv hd c
  obtain ⟨⟨o', b', call⟩, hr, -⟩ := LOpt.run_post hd.ph_pos hm.opt hm.builder.shaped hm.builder.dims hx hu (status := st)
    (obj := obj) (sol := sol) (fun hw => by rw [h0] at hw; exact absurd hw.2.1 (by omega))
  have hstep : m.step (.optimize x0 u0 (.answered st obj sol)) = .ok (⟨m.d, b', o'⟩, .result o'.result call) := by
    simp only [LMpc.step, hr, ok_bind]
    rfl
  obtain ⟨st', obj', sol', he, hs⟩ := solved_of_step hd hm hx hu hstep
  cases he
  exact ⟨_, _, _, _, hs⟩

end Mpc
