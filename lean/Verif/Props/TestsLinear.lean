import Mathlib.Tactic.NormNum
import Verif.Proofs.Setters2
import Verif.Spec.Tests
import Verif.Props.Sample

/-
C122, linear part: what the project's own tests of the linear problem builder (/repo/test/LMPC/test_lmpc.cpp)
assert for one choice of sizes and numbers holds for all sizes and numbers.
-/
namespace Mpc.Props
open Exec Builder Spec

set_option linter.unusedSectionVars false
variable {K : Type} [Field K] [DecidableEq K] [LinearOrder K] [IsStrictOrderedRing K]

/-- Stacked `[x; u]` blocks: entry `k` of the concatenation of blocks of `nu + nx` entries, the first `nx` of
block `i` from `x i`, the others from `u i`. -/
def stacked {α : Type} (d : Dims) (x u : Nat → Nat → α) (k : Nat) : α :=
  if k % (d.nu + d.nx) < d.nx then x (k / (d.nu + d.nx)) (k % (d.nu + d.nx))
  else u (k / (d.nu + d.nx)) (k % (d.nu + d.nx) - d.nx)

theorem stacked_x {α : Type} {d : Dims} (x u : Nat → Nat → α) {i a : Nat} (ha : a < d.nx) :
    stacked d x u (i * (d.nu + d.nx) + a) = x i a := by
  unfold stacked
  rw [block_div i (by omega), block_mod i (by omega), if_pos ha]

theorem stacked_u {α : Type} {d : Dims} (x u : Nat → Nat → α) {i a : Nat} (ha : a < d.nu) :
    stacked d x u (i * (d.nu + d.nx) + (d.nx + a)) = u i a := by
  unfold stacked
  rw [block_div i (by omega), block_mod i (by omega), if_neg (by omega)]
  congr 1; omega

private theorem dist_zero {d : Dims} {b : Builder K} {c : LinConfig K} (h : Good d b c)
    (hB : c.Bd = fun _ _ => 0) (hD : c.Dd = fun _ _ => 0) (uM : Mat K) (k : Nat) :
    (∀ a, a < d.nu + d.nx → b.distX uM a k = 0) ∧ (∀ a, a < d.ny → b.distY uM a k = 0) := by
  obtain rfl := h.dims
  constructor
  · intro a ha
    unfold distX
    rw [sumTo_eq]
    refine Finset.sum_eq_zero fun e he => ?_
    have he := Finset.mem_range.1 he
    by_cases hx : a < b.d.nx
    · rw [h.repr.Bvx a e hx he, hB, zero_mul]
    · obtain ⟨a', rfl⟩ : ∃ a', a = b.d.nx + a' := ⟨a - b.d.nx, by omega⟩
      rw [h.repr.Bvu a' e (by omega) he, zero_mul]
  · intro a ha
    unfold distY
    rw [sumTo_eq]
    refine Finset.sum_eq_zero fun e he => ?_
    rw [h.repr.Dvy a e ha (Finset.mem_range.1 he), hD, zero_mul]

/-- The bounds handed to the solver by a builder with configuration `c` without disturbance model. -/
private theorem get_bounds {d : Dims} (hph : 0 < d.ph) {b : Builder K} {c : LinConfig K} (h : Good d b c)
    (hB : c.Bd = fun _ _ => 0) (hD : c.Dd = fun _ _ => 0)
    {x0 u0 : Vec K} {yRef uRef duRef uMeas : Mat K} (ha : ArgShaped d x0 u0 yRef uRef duRef uMeas) :
    Post (b.get x0 u0 yRef uRef duRef uMeas) (fun r =>
      (r.l.size = d.nC ∧ r.u.size = d.nC) ∧
      (SegIs r.l 0 d.nx (fun a => .fin (-(x0.get a))) ∧ SegIs r.u 0 d.nx (fun a => .fin (-(x0.get a)))) ∧
      (SegIs r.l d.nx d.nu (fun a => .fin (-(u0.get a))) ∧ SegIs r.u d.nx d.nu (fun a => .fin (-(u0.get a)))) ∧
      (SegIs r.l (d.nx + d.nu) (d.ph * (d.nx + d.nu)) (fun _ => .fin 0) ∧
        SegIs r.u (d.nx + d.nu) (d.ph * (d.nx + d.nu)) (fun _ => .fin 0)) ∧
      (SegIs r.l d.nS d.nS (stacked d (fun i a => c.xMin (i - 1) a)
          (fun i a => c.uMin (if i = d.ph then i - 1 else i) a)) ∧
        SegIs r.u d.nS d.nS (stacked d (fun i a => c.xMax (i - 1) a)
          (fun i a => c.uMax (if i = d.ph then i - 1 else i) a))) ∧
      (SegIs r.l (d.nS + d.nS) d.nY (fun k => c.yMin (k / d.ny - 1) (k % d.ny)) ∧
        SegIs r.u (d.nS + d.nS) d.nY (fun k => c.yMax (k / d.ny - 1) (k % d.ny))) ∧
      (SegIs r.l (d.nS + d.nS + d.nY) d.nD (fun k => if d.ch < k / d.nu then .fin 0 else .negInf) ∧
        SegIs r.u (d.nS + d.nS + d.nY) d.nD (fun k => if d.ch < k / d.nu then .fin 0 else .posInf)) ∧
      (SegIs r.l (d.nS + d.nS + d.nY + d.nD) (d.ph + 1) (fun k => c.sMin (k - 1)) ∧
        SegIs r.u (d.nS + d.nS + d.nY + d.nD) (d.ph + 1) (fun k => c.sMax (k - 1)))) := by
  have hz := dist_zero h hB hD uMeas
  obtain rfl := h.dims
  refine Post.mono (get_post b h.shaped ha hph) ?_
  intro r s
  have hd : r.d = b.d := s.same.d
  have hS : (b.d.ph + 1) * (b.d.nu + b.d.nx) = b.d.nS := rfl
  have hS' : b.d.nS = b.d.ph * (b.d.nu + b.d.nx) + (b.d.nu + b.d.nx) := by rw [← hS, Nat.add_mul]; omega
  have hY : (b.d.ph + 1) * b.d.ny = b.d.nY := rfl
  have hDD : b.d.ph * b.d.nu = b.d.nD := rfl
  have hI : b.d.nI = b.d.nS + (b.d.nY + b.d.nD + (b.d.ph + 1)) := rfl
  have hC : b.d.nC = b.d.nS + b.d.nI := rfl
  have hxu : b.d.nx + b.d.nu = b.d.nu + b.d.nx := Nat.add_comm _ _
  have hl : r.l.size = b.d.nC := by rw [s.shaped.l, hd]
  have hu : r.u.size = b.d.nC := by rw [s.shaped.u, hd]
  have hlo := h.derived.lineq
  have hup := h.derived.uineq
  have eqz : ∀ k, k < b.d.ph * (b.d.nx + b.d.nu) → r.l.get (b.d.nx + b.d.nu + k) = .fin 0 := by
    intro k hk
    rw [hxu] at hk ⊢
    obtain ⟨i, a, hi, ha', rfl⟩ := exists_block hk
    have : b.d.nu + b.d.nx + (i * (b.d.nu + b.d.nx) + a) = (i + 1) * (b.d.nu + b.d.nx) + a := by
      rw [Nat.add_mul]; omega
    rw [this, s.le i a hi ha', (hz i).1 a ha', neg_zero]
  refine ⟨⟨hl, hu⟩, ⟨⟨by omega, ?_⟩, ⟨by omega, ?_⟩⟩, ⟨⟨by omega, ?_⟩, ⟨by omega, ?_⟩⟩,
    ⟨⟨by rw [hxu]; omega, eqz⟩, ⟨by rw [hxu]; omega, ?_⟩⟩, ⟨⟨by omega, ?_⟩, ⟨by omega, ?_⟩⟩,
    ⟨⟨by omega, ?_⟩, ⟨by omega, ?_⟩⟩, ⟨⟨by omega, ?_⟩, ⟨by omega, ?_⟩⟩, ⟨⟨by omega, ?_⟩, ⟨by omega, ?_⟩⟩⟩
  · intro a ha'; rw [Nat.zero_add]; exact s.l0x a ha'
  · intro a ha'; rw [Nat.zero_add, ← s.leqlu a (by omega)]; exact s.l0x a ha'
  · intro a ha'; exact s.l0u a ha'
  · intro a ha'; rw [← s.leqlu _ (by omega)]; exact s.l0u a ha'
  · intro k hk
    rw [← s.leqlu _ (by rw [hxu] at hk ⊢; omega)]; exact eqz k hk
  · intro k hk
    rw [s.lx k hk]
    obtain ⟨i, a, hi, ha', rfl⟩ := exists_block hk
    by_cases hx : a < b.d.nx
    · rw [stacked_x _ _ hx, hlo.x i a (by omega) hx, h.repr.xMin a i hx (by omega)]
    · obtain ⟨a', rfl⟩ : ∃ a', a = b.d.nx + a' := ⟨a - b.d.nx, by omega⟩
      rw [stacked_u _ _ (by omega), hlo.u i a' (by omega) (by omega),
        h.repr.uMin a' _ (by omega) (by split <;> omega)]
  · intro k hk
    rw [s.ux k hk]
    obtain ⟨i, a, hi, ha', rfl⟩ := exists_block hk
    by_cases hx : a < b.d.nx
    · rw [stacked_x _ _ hx, hup.x i a (by omega) hx, h.repr.xMax a i hx (by omega)]
    · obtain ⟨a', rfl⟩ : ∃ a', a = b.d.nx + a' := ⟨a - b.d.nx, by omega⟩
      rw [stacked_u _ _ (by omega), hup.u i a' (by omega) (by omega),
        h.repr.uMax a' _ (by omega) (by split <;> omega)]
  · intro k hk
    obtain ⟨i, a, hi, ha', rfl⟩ := exists_block hk
    beta_reduce
    rw [block_div i ha', block_mod i ha', Nat.add_assoc, s.ly i a (by omega) ha', hlo.y i a (by omega) ha',
      h.repr.yMin a i ha' (by omega), (hz _).2 a ha', neg_zero, Ext.add_zero']
  · intro k hk
    obtain ⟨i, a, hi, ha', rfl⟩ := exists_block hk
    beta_reduce
    rw [block_div i ha', block_mod i ha', Nat.add_assoc, s.uy i a (by omega) ha', hup.y i a (by omega) ha',
      h.repr.yMax a i ha' (by omega), (hz _).2 a ha', neg_zero, Ext.add_zero']
  · intro k hk
    rw [show b.d.nS + b.d.nS + b.d.nY + k = b.d.nS + (b.d.nS + b.d.nY + k) by omega,
      s.lt _ (by omega) (by omega)]
    obtain ⟨i, a, hi, ha', rfl⟩ := exists_block hk
    beta_reduce
    rw [block_div i ha', hlo.du i a hi ha']
  · intro k hk
    rw [show b.d.nS + b.d.nS + b.d.nY + k = b.d.nS + (b.d.nS + b.d.nY + k) by omega,
      s.ut _ (by omega) (by omega)]
    obtain ⟨i, a, hi, ha', rfl⟩ := exists_block hk
    beta_reduce
    rw [block_div i ha', hup.du i a hi ha']
  · intro k hk
    rw [show b.d.nS + b.d.nS + b.d.nY + b.d.nD + k = b.d.nS + (b.d.nS + b.d.nY + b.d.nD + k) by omega,
      s.lt _ (by omega) (by omega), hlo.sc k (by omega), h.repr.sMin k (by omega)]
  · intro k hk
    rw [show b.d.nS + b.d.nS + b.d.nY + b.d.nD + k = b.d.nS + (b.d.nS + b.d.nY + b.d.nD + k) by omega,
      s.ut _ (by omega) (by omega), hup.sc k (by omega), h.repr.sMax k (by omega)]

/-- "Linear default constraints" (test_lmpc.cpp:156-199) for every size: a new builder, asked for any current state
and command and any references, produces first rows pinning the current state and command, zero on the right hand
side of the dynamics, and no limit at all: every other row runs from `-inf` to `+inf`. `uninit` is the content of the
storage that the builder allocates and does not fill; the test leaves the references and the measured inputs
uninitialised, which is why they are arbitrary here. The test has `ch = ph`; the increments are free for
`ph ≤ ch + 1` (beyond, the blocked increments are 0, see C31). -/
theorem c122_default_constraints {d : Dims} (hph : 0 < d.ph) (hch : d.ph ≤ d.ch + 1) (uninit : Nat → Nat → K)
    {x0 u0 : Vec K} {yRef uRef duRef uMeas : Mat K} (ha : ArgShaped d x0 u0 yRef uRef duRef uMeas) :
    ∃ b r, Builder.onInit d uninit = .ok b ∧ b.get x0 u0 yRef uRef duRef uMeas = .ok r ∧
      SegIs r.l 0 d.nx (fun a => .fin (-(x0.get a))) ∧
      SegIs r.l d.nx d.nu (fun a => .fin (-(u0.get a))) ∧
      SegIs r.l (d.nx + d.nu) (d.ph * (d.nx + d.nu)) (fun _ => .fin 0) ∧
      SegIs r.l ((d.ph + 1) * (d.nx + d.nu))
        ((d.ph + 1) * (d.nu + d.nx) + (d.ph + 1) * d.ny + d.ph * d.nu + (d.ph + 1)) (fun _ => .negInf) ∧
      SegIs r.u 0 d.nx (fun a => .fin (-(x0.get a))) ∧
      SegIs r.u d.nx d.nu (fun a => .fin (-(u0.get a))) ∧
      SegIs r.u (d.nx + d.nu) (d.ph * (d.nx + d.nu)) (fun _ => .fin 0) ∧
      SegIs r.u ((d.ph + 1) * (d.nx + d.nu))
        ((d.ph + 1) * (d.nu + d.nx) + (d.ph + 1) * d.ny + d.ph * d.nu + (d.ph + 1)) (fun _ => .posInf) := by
  obtain ⟨b, hb, g⟩ := Builder.onInit_post hph uninit
  obtain ⟨r, hr, hs, hx, hu, hz, hxu, hy, hd, hsc⟩ := get_bounds hph g rfl rfl ha
  have hS : (d.ph + 1) * (d.nu + d.nx) = d.nS := rfl
  have hS2 : (d.ph + 1) * (d.nx + d.nu) = d.nS := by rw [Nat.add_comm d.nx]; rfl
  have hY : (d.ph + 1) * d.ny = d.nY := rfl
  have hDD : d.ph * d.nu = d.nD := rfl
  have hI : d.nI = d.nS + (d.nY + d.nD + (d.ph + 1)) := rfl
  have hC : d.nC = d.nS + d.nI := rfl
  have free : ∀ k, k < d.nD → ¬ d.ch < k / d.nu := by
    intro k hk
    obtain ⟨i, a, hi, ha', rfl⟩ := exists_block (s := d.nu) (n := d.ph) hk
    rw [block_div i ha']; omega
  refine ⟨b, r, hb, hr, hx.1, hu.1, hz.1, ⟨?_, ?_⟩, hx.2, hu.2, hz.2, ⟨?_, ?_⟩⟩
  · rw [hS, hS2, hY, hDD]; omega
  · intro k hk
    rw [hS, hY, hDD] at hk
    rw [hS2]
    by_cases h1 : k < d.nS
    · rw [hxu.1.2 k h1]
      unfold stacked
      split <;> rfl
    · by_cases h2 : k < d.nS + d.nY
      · rw [show d.nS + k = d.nS + d.nS + (k - d.nS) by omega, hy.1.2 _ (by omega)]; rfl
      · by_cases h3 : k < d.nS + d.nY + d.nD
        · rw [show d.nS + k = d.nS + d.nS + d.nY + (k - d.nS - d.nY) by omega, hd.1.2 _ (by omega)]
          exact if_neg (free _ (by omega))
        · rw [show d.nS + k = d.nS + d.nS + d.nY + d.nD + (k - d.nS - d.nY - d.nD) by omega,
            hsc.1.2 _ (by omega)]; rfl
  · rw [hS, hS2, hY, hDD]; omega
  · intro k hk
    rw [hS, hY, hDD] at hk
    rw [hS2]
    by_cases h1 : k < d.nS
    · rw [hxu.2.2 k h1]
      unfold stacked
      split <;> rfl
    · by_cases h2 : k < d.nS + d.nY
      · rw [show d.nS + k = d.nS + d.nS + (k - d.nS) by omega, hy.2.2 _ (by omega)]; rfl
      · by_cases h3 : k < d.nS + d.nY + d.nD
        · rw [show d.nS + k = d.nS + d.nS + d.nY + (k - d.nS - d.nY) by omega, hd.2.2 _ (by omega)]
          exact if_neg (free _ (by omega))
        · rw [show d.nS + k = d.nS + d.nS + d.nY + d.nD + (k - d.nS - d.nY - d.nD) by omega,
            hsc.2.2 _ (by omega)]; rfl

/-- The sizes and numbers of the test meet the hypotheses: nx=3, nu=5, ndu=6, ny=4, ph=ch=5, x0=1, u0=-1; the
expected entries are -1 and 1. -/
example : ∃ b r, Builder.onInit (K := ℚ) ⟨3, 5, 6, 4, 5, 5, 0, 0⟩ (fun i j => i + j) = .ok b ∧
    b.get (Vec.const 3 1) (Vec.const 5 (-1)) ⟨4, 5, fun i j => i - j⟩ ⟨5, 5, fun i _ => i⟩ ⟨5, 5, fun _ j => j⟩
      ⟨6, 5, fun i j => i * j⟩ = .ok r ∧
    SegIs r.l 0 3 (fun _ => .fin (-1)) ∧ SegIs r.l 3 5 (fun _ => .fin 1) ∧ SegIs r.l 8 40 (fun _ => .fin 0) ∧
    SegIs r.l 48 (48 + 24 + 25 + 6) (fun _ => .negInf) ∧ SegIs r.u 48 (48 + 24 + 25 + 6) (fun _ => .posInf) := by
  obtain ⟨b, r, h1, h2, h3, h4, h5, h6, -, -, -, h7⟩ := c122_default_constraints (K := ℚ)
    (d := ⟨3, 5, 6, 4, 5, 5, 0, 0⟩) (by decide) (by decide) (fun i j => i + j)
    (x0 := Vec.const 3 1) (u0 := Vec.const 5 (-1)) (yRef := ⟨4, 5, fun i j => i - j⟩)
    (uRef := ⟨5, 5, fun i _ => i⟩) (duRef := ⟨5, 5, fun _ j => j⟩) (uMeas := ⟨6, 5, fun i j => i * j⟩)
    ⟨rfl, rfl, ⟨rfl, rfl⟩, ⟨rfl, rfl⟩, ⟨rfl, rfl⟩, ⟨rfl, rfl⟩⟩
  refine ⟨b, r, h1, h2, h3, ⟨h4.1, fun k hk => ?_⟩, h5, h6, h7⟩
  rw [h4.2 k hk]
  simp [Vec.const]

/-- "Linear constraints" (test_lmpc.cpp:201-303) for every size and data: after `setStateBounds`, `setInputBounds`,
`setOutputBounds` and `setScalarConstraint` with whole-horizon matrices, the rows of the problem carry the limits given
for their step (row 0 carries those of the first step, the last command row those of the last), the increments are
free and the scalar rows carry the scalar limits. -/
theorem c122_constraints {d : Dims} (hd : d.Valid) (hch : d.ch = d.ph) (uninit : Nat → Nat → K)
    {xmin xmax umin umax ymin ymax : Mat (Ext K)} {smin smax : Vec (Ext K)} {X U : Vec K}
    (hxm : xmin.rows = d.nx ∧ xmin.cols = d.ph) (hxM : xmax.rows = d.nx ∧ xmax.cols = d.ph)
    (hum : umin.rows = d.nu ∧ umin.cols = d.ch) (huM : umax.rows = d.nu ∧ umax.cols = d.ch)
    (hym : ymin.rows = d.ny ∧ ymin.cols = d.ph) (hyM : ymax.rows = d.ny ∧ ymax.cols = d.ph)
    (hsm : smin.size = d.ph) (hsM : smax.size = d.ph) (hX : X.size = d.nx) (hU : U.size = d.nu)
    {x0 u0 : Vec K} {yRef uRef duRef uMeas : Mat K} (ha : ArgShaped d x0 u0 yRef uRef duRef uMeas) :
    ∃ b b1 b2 b3 b4 r, Builder.onInit d uninit = .ok b ∧ b.setStateBounds xmin xmax = .ok (b1, true) ∧
      b1.setInputBounds umin umax = .ok (b2, true) ∧ b2.setOutputBounds ymin ymax = .ok (b3, true) ∧
      b3.setScalarConstraint smin smax X U = .ok (b4, true) ∧ b4.get x0 u0 yRef uRef duRef uMeas = .ok r ∧
      SegIs r.l ((d.ph + 1) * (d.nu + d.nx)) ((d.ph + 1) * (d.nu + d.nx))
        (stacked d (fun i a => xmin.get a (i - 1)) (fun i a => umin.get a (if i = d.ph then i - 1 else i))) ∧
      SegIs r.u ((d.ph + 1) * (d.nu + d.nx)) ((d.ph + 1) * (d.nu + d.nx))
        (stacked d (fun i a => xmax.get a (i - 1)) (fun i a => umax.get a (if i = d.ph then i - 1 else i))) ∧
      SegIs r.l ((d.ph + 1) * (d.nu + d.nx) + (d.ph + 1) * (d.nu + d.nx)) ((d.ph + 1) * d.ny)
        (fun k => ymin.get (k % d.ny) (k / d.ny - 1)) ∧
      SegIs r.u ((d.ph + 1) * (d.nu + d.nx) + (d.ph + 1) * (d.nu + d.nx)) ((d.ph + 1) * d.ny)
        (fun k => ymax.get (k % d.ny) (k / d.ny - 1)) ∧
      SegIs r.l ((d.ph + 1) * (d.nu + d.nx) + (d.ph + 1) * (d.nu + d.nx) + (d.ph + 1) * d.ny) (d.ph * d.nu)
        (fun _ => .negInf) ∧
      SegIs r.u ((d.ph + 1) * (d.nu + d.nx) + (d.ph + 1) * (d.nu + d.nx) + (d.ph + 1) * d.ny) (d.ph * d.nu)
        (fun _ => .posInf) ∧
      TailIs r.l d.ph smin.get ∧ TailIs r.u d.ph smax.get := by
  have hph := hd.ph_pos
  obtain ⟨b, hb, g⟩ := Builder.onInit_post hph uninit
  obtain ⟨⟨b1, t1⟩, e1, rfl, g1⟩ := setStateBounds_post hph g (lo := columns xmin) (hi := columns xmax)
    ⟨hxm, fun _ _ _ _ => rfl⟩ ⟨hxM, fun _ _ _ _ => rfl⟩
  obtain ⟨⟨b2, t2⟩, e2, rfl, g2⟩ := setInputBounds_post hd g1 hch (lo := columns umin) (hi := columns umax)
    ⟨hum, fun _ _ _ _ => rfl⟩ ⟨huM, fun _ _ _ _ => rfl⟩
  obtain ⟨⟨b3, t3⟩, e3, rfl, g3⟩ := setOutputBounds_post hph g2 (lo := columns ymin) (hi := columns ymax)
    ⟨hym, fun _ _ _ _ => rfl⟩ ⟨hyM, fun _ _ _ _ => rfl⟩
  obtain ⟨⟨b4, t4⟩, e4, rfl, g4⟩ := setScalarConstraint_post hph g3 (lo := smin.get) (hi := smax.get)
    ⟨hsm, fun _ _ => rfl⟩ ⟨hsM, fun _ _ => rfl⟩ hX hU
  obtain ⟨r, hr, hs, -, -, -, hxu, hy, hdu, hsc⟩ := get_bounds hph g4 rfl rfl ha
  have hDD : d.ph * d.nu = d.nD := rfl
  have hI : d.nI = d.nS + (d.nY + d.nD + (d.ph + 1)) := rfl
  have hC : d.nC = d.nS + d.nI := rfl
  have free : ∀ k, k < d.nD → ¬ d.ch < k / d.nu := by
    intro k hk
    obtain ⟨i, a, hi, ha', rfl⟩ := exists_block (s := d.nu) (n := d.ph) hk
    rw [block_div i ha']; omega
  refine ⟨b, b1, b2, b3, b4, r, hb, e1, e2, e3, e4, hr, hxu.1, hxu.2, hy.1, hy.2, ⟨hdu.1.1, ?_⟩, ⟨hdu.2.1, ?_⟩,
    ⟨by omega, ?_⟩, ⟨by omega, ?_⟩⟩
  · intro k hk; exact (hdu.1.2 k hk).trans (if_neg (free k hk))
  · intro k hk; exact (hdu.2.2 k hk).trans (if_neg (free k hk))
  · intro k hk
    rw [show r.l.size - d.ph + k = d.nS + d.nS + d.nY + d.nD + (k + 1) by omega, hsc.1.2 _ (by omega)]
    rfl
  · intro k hk
    rw [show r.u.size - d.ph + k = d.nS + d.nS + d.nY + d.nD + (k + 1) by omega, hsc.2.2 _ (by omega)]
    rfl

/-- The numbers of the test: nx=2, nu=4, ny=3, ph=ch=3, limits ±1, ±3, ±2, ±4: the expected segment
`-1 -1 -3 -3 -3 -3` repeated, then `-2`, then `-inf`, and `-4` at the tail. -/
example : ∃ b b1 b2 b3 b4 r, Builder.onInit (K := ℚ) ⟨2, 4, 0, 3, 3, 3, 0, 0⟩ (fun i j => i + j) = .ok b ∧
    b.setStateBounds (Mat.const 2 3 (.fin (-1))) (Mat.const 2 3 (.fin 1)) = .ok (b1, true) ∧
    b1.setInputBounds (Mat.const 4 3 (.fin (-3))) (Mat.const 4 3 (.fin 3)) = .ok (b2, true) ∧
    b2.setOutputBounds (Mat.const 3 3 (.fin (-2))) (Mat.const 3 3 (.fin 2)) = .ok (b3, true) ∧
    b3.setScalarConstraint (Vec.const 3 (.fin (-4))) (Vec.const 3 (.fin 4)) (Vec.const 2 42) (Vec.const 4 (-42))
      = .ok (b4, true) ∧
    b4.get (Vec.const 2 42) (Vec.const 4 (-42)) (Mat.const 3 3 0) (Mat.const 4 3 0) (Mat.const 4 3 0)
      (Mat.const 0 3 0) = .ok r ∧
    SegIs r.l 24 24 (fun k => .fin (if k % 6 < 2 then -1 else -3)) ∧
    SegIs r.u 48 12 (fun _ => .fin 2) ∧ SegIs r.l 60 12 (fun _ => .negInf) ∧
    TailIs r.l 3 (fun _ => .fin (-4)) ∧ TailIs r.u 3 (fun _ => .fin 4) := by
  obtain ⟨b, b1, b2, b3, b4, r, h0, h1, h2, h3, h4, h5, l1, -, -, u2, l3, -, l4, u4⟩ :=
    c122_constraints (K := ℚ) (d := ⟨2, 4, 0, 3, 3, 3, 0, 0⟩) ⟨by decide, by decide, by decide, by decide⟩ rfl
    (fun i j => i + j)
    (xmin := Mat.const 2 3 (.fin (-1))) (xmax := Mat.const 2 3 (.fin 1))
    (umin := Mat.const 4 3 (.fin (-3))) (umax := Mat.const 4 3 (.fin 3))
    (ymin := Mat.const 3 3 (.fin (-2))) (ymax := Mat.const 3 3 (.fin 2))
    (smin := Vec.const 3 (.fin (-4))) (smax := Vec.const 3 (.fin 4)) (X := Vec.const 2 42) (U := Vec.const 4 (-42))
    ⟨rfl, rfl⟩ ⟨rfl, rfl⟩ ⟨rfl, rfl⟩ ⟨rfl, rfl⟩ ⟨rfl, rfl⟩ ⟨rfl, rfl⟩ rfl rfl rfl rfl
    (x0 := Vec.const 2 42) (u0 := Vec.const 4 (-42)) (yRef := Mat.const 3 3 0) (uRef := Mat.const 4 3 0)
    (duRef := Mat.const 4 3 0) (uMeas := Mat.const 0 3 0)
    ⟨rfl, rfl, ⟨rfl, rfl⟩, ⟨rfl, rfl⟩, ⟨rfl, rfl⟩, ⟨rfl, rfl⟩⟩
  refine ⟨b, b1, b2, b3, b4, r, h0, h1, h2, h3, h4, h5, ⟨l1.1, fun k hk => ?_⟩, u2, l3, l4, u4⟩
  rw [show (24 : Nat) = (3 + 1) * (4 + 2) from rfl, l1.2 k hk]
  unfold stacked
  simp only [Mat.const_get]
  split <;> rename_i h <;> simp [h]

/-- "Linear output mapping" (test_lmpc.cpp:305-337) for every size and data: after `setStateModel(A, B, C)` and
`setExogenousInput(Bd, Dd)`, the output of a state and a disturbance is `C x + Dd du`. -/
theorem c122_output_mapping {d : Dims} (hph : 0 < d.ph) (uninit : Nat → Nat → K) {A B C Bd Dd : Mat K}
    (hA : A.rows = d.nx ∧ A.cols = d.nx) (hB : B.rows = d.nx ∧ B.cols = d.nu) (hC : C.rows = d.ny ∧ C.cols = d.nx)
    (hBd : Bd.rows = d.nx ∧ Bd.cols = d.ndu) (hDd : Dd.rows = d.ny ∧ Dd.cols = d.ndu)
    {x du : Vec K} (hx : x.size = d.nx) (hdu : du.size = d.ndu) :
    ∃ b b1 b2 y, Builder.onInit d uninit = .ok b ∧ b.setStateModel A B C = .ok (b1, true) ∧
      b1.setExogenousInput Bd Dd = .ok (b2, true) ∧ b2.mapToOutput x du = .ok y ∧ y.size = d.ny ∧
      ∀ a, a < d.ny → y.get a =
        (∑ e ∈ Finset.range d.nx, C.get a e * x.get e) + ∑ e ∈ Finset.range d.ndu, Dd.get a e * du.get e := by
  obtain ⟨b, hb, g⟩ := Builder.onInit_post hph uninit
  obtain ⟨⟨b1, t1⟩, e1, rfl, g1⟩ := setStateModel_post hph g hA hB hC
  obtain ⟨⟨b2, t2⟩, e2, rfl, g2⟩ := setExogenousInput_post hph g1 hBd hDd
  obtain rfl := g2.dims
  have hs := g2.shaped
  simp only at hs
  have sC := hs.ssC
  have sD := hs.ssDv
  have hm : b2.mapToOutput x du = .ok ⟨b2.d.ny, fun a =>
      (sumTo b2.d.nx fun e => b2.ssC.get (0 + a) (0 + e) * x.get e) +
        sumTo b2.d.ndu fun e => b2.ssDv.get (0 + a) (0 + e) * du.get e⟩ := by
    unfold Builder.mapToOutput
    rw [Mat.block_ok (by omega) (by omega)]
    simp only [ok_bind]
    rw [Mat.mulVec_ok (by exact hx.symm)]
    simp only [ok_bind]
    rw [Mat.block_ok (by omega) (by omega)]
    simp only [ok_bind]
    rw [Mat.mulVec_ok (by exact hdu.symm)]
    simp only [ok_bind]
    rw [Vec.add_ok (by rfl)]
  refine ⟨b, b1, b2, _, hb, e1, e2, hm, rfl, fun a ha => ?_⟩
  simp only [Nat.zero_add, sumTo_eq]
  congr 1
  · refine Finset.sum_congr rfl fun e he => ?_
    rw [g2.repr.Cyx a e ha (Finset.mem_range.1 he)]
  · refine Finset.sum_congr rfl fun e he => ?_
    rw [g2.repr.Dvy a e ha (Finset.mem_range.1 he)]

/-- The sizes of the test: nx=3, nu=0, ndu=7, ny=6, ph=ch=1, with some matrices and vectors. -/
example : ∃ b b1 b2 y, Builder.onInit (K := ℚ) ⟨3, 0, 7, 6, 1, 1, 0, 0⟩ (fun i j => i + j) = .ok b ∧
    b.setStateModel (Mat.const 3 3 0) (Mat.const 3 0 0) ⟨6, 3, fun i j => i + 2 * j⟩ = .ok (b1, true) ∧
    b1.setExogenousInput (Mat.const 3 7 0) ⟨6, 7, fun i j => i * j⟩ = .ok (b2, true) ∧
    b2.mapToOutput ⟨3, fun i => i + 1⟩ (Vec.const 7 1) = .ok y ∧ y.size = 6 ∧ y.get 2 = 28 + 42 := by
  obtain ⟨b, b1, b2, y, h0, h1, h2, h3, h4, h5⟩ := c122_output_mapping (K := ℚ) (d := ⟨3, 0, 7, 6, 1, 1, 0, 0⟩) (by decide)
    (fun i j => i + j) (A := Mat.const 3 3 0) (B := Mat.const 3 0 0) (C := ⟨6, 3, fun i j => i + 2 * j⟩)
    (Bd := Mat.const 3 7 0) (Dd := ⟨6, 7, fun i j => i * j⟩) ⟨rfl, rfl⟩ ⟨rfl, rfl⟩ ⟨rfl, rfl⟩ ⟨rfl, rfl⟩ ⟨rfl, rfl⟩
    (x := ⟨3, fun i => i + 1⟩) (du := Vec.const 7 1) rfl rfl
  refine ⟨b, b1, b2, y, h0, h1, h2, h3, h4, ?_⟩
  rw [h5 2 (by decide)]
  simp [Finset.sum_range_succ, Vec.const]
  norm_num

end Mpc.Props
