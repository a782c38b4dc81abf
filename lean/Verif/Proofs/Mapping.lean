import Mathlib.Algebra.Field.Basic
import Mathlib.Algebra.BigOperators.Group.Finset.Piecewise
import Mathlib.Algebra.BigOperators.Ring.Finset
import Mathlib.Tactic.SplitIfs
import Mathlib.Tactic.FieldSimp
import Mathlib.Tactic.Ring
import Verif.Model.Mapping
import Verif.Spec.Nlp

/-
Characterisation of the move-blocking matrices and of `unwrapVector`.
-/
namespace Mpc
open Exec
set_option linter.unusedSectionVars false

namespace Mapping
variable {K : Type} [Field K]

/-- Shape and contents of the mapping matrices. -/
structure Good (m : Mapping K) : Prop where
  ch_pos : 0 < m.dims.ch
  ch_le : m.dims.ch ≤ m.dims.ph
  insz : m.inputScaling.size = m.dims.nu
  stsz : m.stateScaling.size = m.dims.nx
  invsz : m.invStateScaling.size = m.dims.nx
  inv : ∀ a, a < m.dims.nx → m.invStateScaling.get a = 1 / m.stateScaling.get a
  iz_rows : m.Iz2u.rows = m.dims.ph * m.dims.nu
  iz_cols : m.Iz2u.cols = m.dims.nu * m.dims.ch
  iu_rows : m.Iu2z.rows = m.dims.nu * m.dims.ch
  iu_cols : m.Iu2z.cols = m.dims.ph * m.dims.nu
  iz : ∀ k b j c, k < m.dims.ph → b < m.dims.nu → j < m.dims.ch → c < m.dims.nu →
    m.Iz2u.get (k * m.dims.nu + b) (j * m.dims.nu + c)
      = if j = min k (m.dims.ch - 1) ∧ b = c then m.inputScaling.get b else 0
  iu : ∀ k b j c, k < m.dims.ph → b < m.dims.nu → j < m.dims.ch → c < m.dims.nu →
    m.Iu2z.get (j * m.dims.nu + c) (k * m.dims.nu + b)
      = if j = k ∧ b = c then 1 / m.inputScaling.get b else 0
  szr : m.Sz2u.rows = m.dims.nu
  szc : m.Sz2u.cols = m.dims.nu
  sur : m.Su2z.rows = m.dims.nu
  suc : m.Su2z.cols = m.dims.nu
  sz : ∀ b c, b < m.dims.nu → c < m.dims.nu →
    m.Sz2u.get b c = if b = c then m.inputScaling.get b else 0
  su : ∀ b c, b < m.dims.nu → c < m.dims.nu →
    m.Su2z.get b c = if b = c then 1 / m.inputScaling.get b else 0

theorem scal_post (v : Vec K) (n : Nat) (hv : v.size = n) :
    Post (forRange n (Mat.const n n (0 : K), Mat.const n n (0 : K)) fun i S => do
      let a ← v.at? i
      let S1 ← S.1.set i i a
      let S2 ← S.2.set i i (1 / a)
      return (S1, S2))
    (fun S => S.1.rows = n ∧ S.1.cols = n ∧ S.2.rows = n ∧ S.2.cols = n ∧
      (∀ b c, b < n → c < n → S.1.get b c = if b = c then v.get b else 0) ∧
      (∀ b c, b < n → c < n → S.2.get b c = if b = c then 1 / v.get b else 0)) := by
  refine (forRange_post n _ _ (fun i S => S.1.rows = n ∧ S.1.cols = n ∧ S.2.rows = n ∧ S.2.cols = n ∧
      (∀ b c, b < n → c < n → S.1.get b c = if b = c ∧ b < i then v.get b else 0) ∧
      (∀ b c, b < n → c < n → S.2.get b c = if b = c ∧ b < i then 1 / v.get b else 0)) ?_ ?_).mono ?_
  · simp [Mat.const]
  · rintro i ⟨S1, S2⟩ hi ⟨h1, h2, h3, h4, h5, h6⟩
    dsimp only at h1 h2 h3 h4 h5 h6 ⊢
    rw [Vec.at_ok (by omega)]
    simp only [ok_bind]
    rw [Mat.set_ok (by omega) (by omega), ok_bind, Mat.set_ok (by omega) (by omega), ok_bind]
    refine post_pure ⟨h1, h2, h3, h4, ?_, ?_⟩
    · intro b c hb hc
      simp only [Mat.setRaw]
      by_cases hbi : b = i ∧ c = i
      · obtain ⟨rfl, rfl⟩ := hbi; simp
      · rw [if_neg hbi, h5 b c hb hc]
        congr 1; apply propext; constructor
        · rintro ⟨rfl, h⟩; exact ⟨rfl, by omega⟩
        · rintro ⟨rfl, h⟩; exact ⟨rfl, by omega⟩
    · intro b c hb hc
      simp only [Mat.setRaw]
      by_cases hbi : b = i ∧ c = i
      · obtain ⟨rfl, rfl⟩ := hbi; simp
      · rw [if_neg hbi, h6 b c hb hc]
        congr 1; apply propext; constructor
        · rintro ⟨rfl, h⟩; exact ⟨rfl, by omega⟩
        · rintro ⟨rfl, h⟩; exact ⟨rfl, by omega⟩
  · rintro ⟨S1, S2⟩ ⟨h1, h2, h3, h4, h5, h6⟩
    refine ⟨h1, h2, h3, h4, ?_, ?_⟩
    · intro b c hb hc; rw [h5 b c hb hc]; simp [hb]
    · intro b c hb hc; rw [h6 b c hb hc]; simp [hb]

theorem holdCount_eq {d : Dims} (h0 : 0 < d.ch) (h : d.ch ≤ d.ph) (hp : d.ph < 2 ^ 31) (i : Nat) :
    holdCount d i = if i = d.ch - 1 then d.ph - d.ch + 1 else 1 := by
  unfold holdCount toSizeT
  split_ifs with hi
  · have : ((d.ph : Int) - d.ch + 1) = ((d.ph - d.ch + 1 : Nat) : Int) := by omega
    rw [this]
    rw [Int.emod_eq_of_lt (by omega) (by omega)]
    simp
  · rfl

/-- first step at which the `i`-th decision input is used -/
theorem setBlock_get {m : Mat K} {r0 c0 n k b j c : Nat} {src : Nat → Nat → K} (hb : b < n) (hc : c < n) :
    (m.setBlockRaw (r0 * n) (c0 * n) n n src).get (k * n + b) (j * n + c)
      = if k = r0 ∧ j = c0 then src b c else m.get (k * n + b) (j * n + c) := by
  simp only [Mat.setBlockRaw, block_mem_iff hb, block_mem_iff hc]
  split_ifs with h
  · obtain ⟨rfl, rfl⟩ := h; simp
  · rfl

theorem computeMapping_post (m : Mapping K) (h0 : 0 < m.dims.ch) (hle : m.dims.ch ≤ m.dims.ph)
    (hp : m.dims.ph < 2 ^ 31) (hin : m.inputScaling.size = m.dims.nu)
    (hst : m.stateScaling.size = m.dims.nx) (hinv : m.invStateScaling.size = m.dims.nx)
    (hi : ∀ a, a < m.dims.nx → m.invStateScaling.get a = 1 / m.stateScaling.get a) :
    Post (computeMapping m) (fun m' => m'.Good ∧ m'.dims = m.dims ∧ m'.inputScaling = m.inputScaling ∧
      m'.stateScaling = m.stateScaling ∧ m'.invStateScaling = m.invStateScaling) := by
  unfold computeMapping
  dsimp only
  refine Post.bind (scal_post m.inputScaling m.dims.nu hin) ?_
  rintro ⟨S, Si⟩ ⟨hs1, hs2, hs3, hs4, hs5, hs6⟩
  dsimp only at hs1 hs2 hs3 hs4 hs5 hs6 ⊢
  refine Post.bind (Q := fun r => r.2.2.1.rows = m.dims.ph * m.dims.nu ∧ r.2.2.1.cols = m.dims.nu * m.dims.ch ∧
      r.2.2.2.rows = m.dims.nu * m.dims.ch ∧ r.2.2.2.cols = m.dims.ph * m.dims.nu ∧
      (∀ k b j c, k < m.dims.ph → b < m.dims.nu → j < m.dims.ch → c < m.dims.nu →
        r.2.2.1.get (k * m.dims.nu + b) (j * m.dims.nu + c)
          = if j = min k (m.dims.ch - 1) then S.get b c else 0) ∧
      (∀ k b j c, k < m.dims.ph → b < m.dims.nu → j < m.dims.ch → c < m.dims.nu →
        r.2.2.2.get (j * m.dims.nu + c) (k * m.dims.nu + b)
          = if j = k then Si.get c b else 0)) ?_ ?_
  · refine (forRange_post m.dims.ch _ _ (fun i r => r.1 = i * m.dims.nu ∧
      r.2.1 = (if i = m.dims.ch then m.dims.ph else i) * m.dims.nu ∧
      r.2.2.1.rows = m.dims.ph * m.dims.nu ∧ r.2.2.1.cols = m.dims.nu * m.dims.ch ∧
      r.2.2.2.rows = m.dims.nu * m.dims.ch ∧ r.2.2.2.cols = m.dims.ph * m.dims.nu ∧
      (∀ k b j c, k < m.dims.ph → b < m.dims.nu → j < m.dims.ch → c < m.dims.nu →
        r.2.2.1.get (k * m.dims.nu + b) (j * m.dims.nu + c)
          = if j = min k (m.dims.ch - 1) ∧ j < i then S.get b c else 0) ∧
      (∀ k b j c, k < m.dims.ph → b < m.dims.nu → j < m.dims.ch → c < m.dims.nu →
        r.2.2.2.get (j * m.dims.nu + c) (k * m.dims.nu + b)
          = if j = k ∧ j < i then Si.get c b else 0)) ?_ ?_).mono ?_
    · refine ⟨by simp, ?_, rfl, rfl, rfl, rfl, ?_, ?_⟩
      · dsimp only; rw [if_neg (by omega)]; simp
      · intros; simp [Mat.const]
      · intros; simp [Mat.const, Mat.transpose]
    · rintro i ⟨ix, jx, Iz, Iu⟩ hi' ⟨hix, hjx, h1, h2, h3, h4, h5, h6⟩
      dsimp only at hix hjx h1 h2 h3 h4 h5 h6 ⊢
      rw [if_neg (by omega)] at hjx
      subst hix hjx
      have e1 : i * m.dims.nu + m.dims.nu ≤ m.dims.nu * m.dims.ch := by
        rw [Nat.mul_comm m.dims.nu]; exact block_end_le hi'
      have e2 : i * m.dims.nu + m.dims.nu ≤ m.dims.ph * m.dims.nu := block_end_le (by omega)
      rw [Mat.setBlock_ok (by omega) (by omega) hs3 hs4, ok_bind, holdCount_eq h0 hle hp]
      refine Post.bind (Q := fun q => q.1 = (if i + 1 = m.dims.ch then m.dims.ph else i + 1) * m.dims.nu ∧
          q.2.rows = m.dims.ph * m.dims.nu ∧ q.2.cols = m.dims.nu * m.dims.ch ∧
          (∀ k b j c, k < m.dims.ph → b < m.dims.nu → j < m.dims.ch → c < m.dims.nu →
            q.2.get (k * m.dims.nu + b) (j * m.dims.nu + c)
              = if j = min k (m.dims.ch - 1) ∧ j < i + 1 then S.get b c else 0)) ?_ ?_
      · have hcnt : i + (if i = m.dims.ch - 1 then m.dims.ph - m.dims.ch + 1 else 1)
            = if i + 1 = m.dims.ch then m.dims.ph else i + 1 := by
          split_ifs <;> omega
        refine (forRange_post _ _ _ (fun j q => q.1 = (i + j) * m.dims.nu ∧
          q.2.rows = m.dims.ph * m.dims.nu ∧ q.2.cols = m.dims.nu * m.dims.ch ∧
          (∀ k b j' c, k < m.dims.ph → b < m.dims.nu → j' < m.dims.ch → c < m.dims.nu →
            q.2.get (k * m.dims.nu + b) (j' * m.dims.nu + c)
              = if (j' = min k (m.dims.ch - 1) ∧ j' < i) ∨ (j' = i ∧ i ≤ k ∧ k < i + j) then S.get b c else 0))
          ?_ ?_).mono ?_
        · refine ⟨by simp, h1, h2, ?_⟩
          intro k b j' c hk hb hj' hc
          rw [h5 k b j' c hk hb hj' hc]
          congr 1; apply propext; constructor
          · exact Or.inl
          · rintro (h | h)
            · exact h
            · omega
        · rintro j ⟨jx, Iz⟩ hj ⟨g1, g2, g3, g4⟩
          dsimp only at g1 g2 g3 g4 ⊢
          subst g1
          have hlt : i + j < m.dims.ph := by
            split_ifs at hj <;> omega
          have e3 : (i + j) * m.dims.nu + m.dims.nu ≤ m.dims.ph * m.dims.nu := block_end_le hlt
          rw [Mat.setBlock_ok (by omega) (by omega) hs1 hs2, ok_bind, require_ok (by omega), ok_bind]
          refine post_pure ⟨by dsimp only; ring, g2, g3, ?_⟩
          intro k b j' c hk hb hj' hc
          dsimp only
          rw [setBlock_get hb hc, g4 k b j' c hk hb hj' hc]
          split_ifs <;> first | rfl | (exfalso; omega)
        · rintro ⟨jx, Iz⟩ ⟨g1, g2, g3, g4⟩
          dsimp only at g1 g2 g3 g4 ⊢
          refine ⟨by rw [g1, hcnt], g2, g3, ?_⟩
          intro k b j c hk hb hj hc
          rw [g4 k b j c hk hb hj hc]
          congr 1; apply propext
          rw [hcnt]
          split_ifs <;> omega
      · rintro ⟨jx, Iz'⟩ ⟨g1, g2, g3, g4⟩
        dsimp only at g1 g2 g3 g4 ⊢
        refine post_pure ⟨by dsimp only; ring, g1, g2, g3, h3, h4, g4, ?_⟩
        intro k b j c hk hb hj hc
        dsimp only
        rw [setBlock_get hc hb, h6 k b j c hk hb hj hc]
        split_ifs <;> first | rfl | (exfalso; omega)
    · rintro ⟨ix, jx, Iz, Iu⟩ ⟨-, -, h1, h2, h3, h4, h5, h6⟩
      dsimp only at h1 h2 h3 h4 h5 h6 ⊢
      refine ⟨h1, h2, h3, h4, ?_, ?_⟩
      · intro k b j c hk hb hj hc
        rw [h5 k b j c hk hb hj hc]; simp [hj]
      · intro k b j c hk hb hj hc
        rw [h6 k b j c hk hb hj hc]; simp [hj]
  · rintro ⟨ix, jx, Iz, Iu⟩ ⟨h1, h2, h3, h4, h5, h6⟩
    dsimp only at h1 h2 h3 h4 h5 h6 ⊢
    refine post_pure ⟨⟨h0, hle, hin, hst, hinv, hi, h1, h2, h3, h4, ?_, ?_, hs1, hs2, hs3, hs4, hs5, hs6⟩,
      rfl, rfl, rfl, rfl⟩
    · intro k b j c hk hb hj hc
      dsimp only at hk hb hj hc ⊢
      rw [h5 k b j c hk hb hj hc, hs5 b c hb hc]
      split_ifs <;> first | rfl | (exfalso; omega)
    · intro k b j c hk hb hj hc
      dsimp only at hk hb hj hc ⊢
      rw [h6 k b j c hk hb hj hc, hs6 c b hc hb]
      by_cases h : c = b
      · subst h; simp
      · have : ¬ b = c := fun e => h e.symm
        simp [h, this]

theorem init_post (d : Dims) (h0 : 0 < d.ch) (hle : d.ch ≤ d.ph) (hp : d.ph < 2 ^ 31) :
    Post (init (K := K) d) (fun m => m.Good ∧ m.dims = d ∧ (∀ i, m.inputScaling.get i = 1) ∧
      (∀ i, m.stateScaling.get i = 1)) := by
  unfold init
  refine (computeMapping_post _ h0 hle hp rfl rfl rfl ?_).mono ?_
  · intros; simp [Vec.const]
  · rintro m ⟨h1, h2, h3, h4, h5⟩
    exact ⟨h1, h2, by simp [h3, Vec.const], by simp [h4, Vec.const]⟩

theorem setInputScaling_post (m : Mapping K) (hm : m.Good) (hp : m.dims.ph < 2 ^ 31) (v : Vec K)
    (hv : v.size = m.dims.nu) :
    Post (setInputScaling m v) (fun m' => m'.Good ∧ m'.dims = m.dims ∧ m'.inputScaling = v ∧
      m'.stateScaling = m.stateScaling) := by
  unfold setInputScaling
  refine (computeMapping_post { m with inputScaling := v } hm.ch_pos hm.ch_le hp hv hm.stsz hm.invsz hm.inv).mono ?_
  rintro m' ⟨h1, h2, h3, h4, h5⟩
  exact ⟨h1, h2, h3, h4⟩

theorem setStateScaling_good (m : Mapping K) (hm : m.Good) (v : Vec K) (hv : v.size = m.dims.nx) :
    (setStateScaling m v).Good := by
  obtain ⟨h1, h2, h3, h4, h5, h6, h7, h8, h9, h10, h11, h12, h13, h14, h15, h16, h17, h18⟩ := hm
  exact ⟨h1, h2, h3, hv, hv, fun a _ => rfl, h7, h8, h9, h10, h11, h12, h13, h14, h15, h16, h17, h18⟩

/-- The matrix expands decision inputs: row `k*nu+b` of `Iz2u * u`. -/
theorem Good.expand {m : Mapping K} (hm : m.Good) (u : Nat → K) {k b : Nat} (hk : k < m.dims.ph)
    (hb : b < m.dims.nu) :
    sumTo m.Iz2u.cols (fun q => m.Iz2u.get (k * m.dims.nu + b) q * u q)
      = m.inputScaling.get b * u (min k (m.dims.ch - 1) * m.dims.nu + b) := by
  have h0 := hm.ch_pos
  rw [sumTo_eq, hm.iz_cols, Nat.mul_comm m.dims.nu, sum_range_mul]
  rw [Finset.sum_eq_single (min k (m.dims.ch - 1))]
  · rw [Finset.sum_eq_single b]
    · rw [hm.iz k b _ b hk hb (by omega) hb]; simp
    · intro c hc hne
      rw [hm.iz k b _ c hk hb (by omega) (Finset.mem_range.1 hc), if_neg (by rintro ⟨-, h⟩; exact hne h.symm)]
      simp
    · intro h; exact absurd (Finset.mem_range.2 hb) h
  · intro j hj hne
    refine Finset.sum_eq_zero fun c hc => ?_
    rw [hm.iz k b j c hk hb (Finset.mem_range.1 hj) (Finset.mem_range.1 hc), if_neg (by rintro ⟨h, -⟩; exact hne h)]
    simp
  · intro h; exact absurd (Finset.mem_range.2 (by omega)) h

/-- The matrix compresses an input sequence: row `j*nu+c` of `Iu2z * u`. -/
theorem Good.compress {m : Mapping K} (hm : m.Good) (u : Nat → K) {j c : Nat} (hj : j < m.dims.ch)
    (hc : c < m.dims.nu) :
    sumTo m.Iu2z.cols (fun q => m.Iu2z.get (j * m.dims.nu + c) q * u q)
      = 1 / m.inputScaling.get c * u (j * m.dims.nu + c) := by
  have h0 := hm.ch_le
  rw [sumTo_eq, hm.iu_cols, sum_range_mul]
  rw [Finset.sum_eq_single j]
  · rw [Finset.sum_eq_single c]
    · rw [hm.iu j c j c (by omega) hc hj hc]; simp
    · intro b hb hne
      rw [hm.iu j b j c (by omega) (Finset.mem_range.1 hb) hj hc, if_neg (by rintro ⟨-, h⟩; exact hne h)]
      simp
    · intro h; exact absurd (Finset.mem_range.2 hc) h
  · intro k hk hne
    refine Finset.sum_eq_zero fun b hb => ?_
    rw [hm.iu k b j c (Finset.mem_range.1 hk) (Finset.mem_range.1 hb) hj hc, if_neg (by rintro ⟨h, -⟩; exact hne h.symm)]
    simp
  · intro h; exact absurd (Finset.mem_range.2 (by omega)) h

/-- What `unwrapVector` leaves in the caller's matrices. -/
structure Unwrapped (m : Mapping K) (z x0 : Nat → K) (r : Mat K × Mat K × K) : Prop where
  xr : r.1.rows = m.dims.ph + 1
  xc : r.1.cols = m.dims.nx
  ur : r.2.1.rows = m.dims.ph + 1
  uc : r.2.1.cols = m.dims.nu
  x_zero : ∀ a, a < m.dims.nx → r.1.get 0 a = m.stateScaling.get a * x0 a
  x_succ : ∀ k a, k < m.dims.ph → a < m.dims.nx →
    r.1.get (k + 1) a = m.stateScaling.get a * z (NlSpec.stateIx m.dims k a)
  u : ∀ k b, k < m.dims.ph + 1 → b < m.dims.nu →
    r.2.1.get k b = NlSpec.inputAt m.dims m.inputScaling.get z k b
  e : r.2.2 = z (NlSpec.slackIx m.dims)

theorem div_one_div (x s : K) : x / (1 / s) = s * x := by
  rw [one_div, div_inv_eq_mul, mul_comm]

theorem unwrapVector_post (m : Mapping K) (hm : m.Good) (x x0 : Vec K) (Xb Ub : Mat K)
    (hx : x.size = m.dims.nZ) (hx0 : x0.size = m.dims.nx)
    (hXr : Xb.rows = m.dims.ph + 1) (hXc : Xb.cols = m.dims.nx)
    (hUr : Ub.rows = m.dims.ph + 1) (hUc : Ub.cols = m.dims.nu) :
    Post (unwrapVector m x x0 Xb Ub) (Unwrapped m x.get x0.get) := by
  have hch := hm.ch_pos
  have hle := hm.ch_le
  unfold unwrapVector
  dsimp only
  have hsz : m.dims.ph * m.dims.nx + m.dims.nu * m.dims.ch ≤ x.size := by rw [hx]; unfold Dims.nZ; omega
  rw [Vec.seg_ok hsz, ok_bind, Mat.mulVec_ok hm.iz_cols, ok_bind]
  rw [require_ok (by dsimp only; rw [hm.iz_rows, Nat.mul_comm]), ok_bind]
  rw [Mat.setBlock_ok (by simp [Mat.const]) (by simp [Mat.const]) (by simp [Mat.transpose])
    (by simp [Mat.transpose]), ok_bind]
  rw [Mat.row_ok (by simp [Mat.const, Mat.setBlockRaw]; omega), ok_bind]
  rw [Mat.setRow_ok (by simp [Mat.const, Mat.setBlockRaw]) (by simp [Mat.const, Mat.setBlockRaw]), ok_bind]
  rw [Mat.setRow_ok (by simp [Mat.const]; omega) (by simp [Mat.const]; omega), ok_bind]
  refine Post.bind (Q := fun X => X.rows = m.dims.ph + 1 ∧ X.cols = m.dims.nx ∧
    (∀ a, X.get 0 a = x0.get a) ∧
    (∀ k a, k < m.dims.ph → X.get (k + 1) a = x.get (k * m.dims.nx + a))) ?_ ?_
  · refine (forFrom_post 1 m.dims.ph _ _ (fun i X => X.rows = m.dims.ph + 1 ∧ X.cols = m.dims.nx ∧
      (∀ a, X.get 0 a = x0.get a) ∧
      (∀ k a, k + 1 < i → X.get (k + 1) a = x.get (k * m.dims.nx + a))) ?_ ?_).mono ?_
    · refine ⟨by simp [Mat.const, Mat.setRowRaw, hXr], by simp [Mat.const, Mat.setRowRaw, hXc], ?_, ?_⟩
      · intro a; simp [Mat.setRowRaw]
      · intro k a hk; omega
    · rintro i X hi1 hi2 ⟨h1, h2, h3, h4⟩
      have : (i - 1) * m.dims.nx + m.dims.nx ≤ m.dims.ph * m.dims.nx := block_end_le (by omega)
      rw [Vec.seg_ok (by omega), ok_bind, Mat.setRow_ok (by omega) (by dsimp only; omega)]
      refine post_ok ⟨h1, h2, ?_, ?_⟩
      · intro a; simp only [Mat.setRowRaw]; rw [if_neg (by omega)]; exact h3 a
      · intro k a hk
        simp only [Mat.setRowRaw]
        by_cases hki : k + 1 = i
        · rw [if_pos hki]; subst hki; simp
        · rw [if_neg hki]; exact h4 k a (by omega)
    · rintro X ⟨h1, h2, h3, h4⟩
      exact ⟨h1, h2, h3, fun k a hk => h4 k a (by omega)⟩
  · rintro X ⟨hr, hc, hz, hs⟩
    refine Post.bind (Q := fun X' => X'.rows = m.dims.ph + 1 ∧ X'.cols = m.dims.nx ∧
      (∀ k a, a < m.dims.nx → X'.get k a = m.stateScaling.get a * X.get k a)) ?_ ?_
    · rw [hc]
      refine (forRange_post m.dims.nx _ _ (fun i X' => X'.rows = m.dims.ph + 1 ∧ X'.cols = m.dims.nx ∧
        (∀ k a, a < m.dims.nx → X'.get k a = if a < i then m.stateScaling.get a * X.get k a else X.get k a))
        ⟨hr, hc, by intros; simp⟩ ?_).mono ?_
      · rintro i X' hi ⟨h1, h2, h3⟩
        have := hm.stsz
        rw [Vec.at_ok (by omega), ok_bind, Mat.col_ok (by omega), ok_bind, Mat.setCol_ok (by omega) rfl]
        refine post_ok ⟨h1, h2, ?_⟩
        intro k a ha
        simp only [Mat.setColRaw]
        by_cases hai : a = i
        · subst hai
          rw [if_pos rfl, if_pos (by omega), h3 k a ha, if_neg (by omega), div_one_div]
        · rw [if_neg hai, h3 k a ha]
          congr 1; apply propext; omega
      · rintro X' ⟨h1, h2, h3⟩
        exact ⟨h1, h2, fun k a ha => by rw [h3 k a ha, if_pos ha]⟩
    · rintro X' ⟨hr', hc', hx'⟩
      rw [Mat.setBlock_ok (by simp [Mat.const, hUr]) (by simp [Mat.const, hUc])
        (by simp [Mat.setRowRaw, Mat.setBlockRaw, Mat.const])
        (by simp [Mat.setRowRaw, Mat.setBlockRaw, Mat.const]), ok_bind]
      rw [require_ok (by rw [hx]; unfold Dims.nZ; omega), ok_bind]
      have hu : ∀ k b, k < m.dims.ph → b < m.dims.nu →
          sumTo m.Iz2u.cols (fun q => m.Iz2u.get (k * m.dims.nu + b) q * x.get (m.dims.ph * m.dims.nx + q))
            = NlSpec.inputAt m.dims m.inputScaling.get x.get k b := by
        intro k b hk hb
        rw [hm.expand (fun q => x.get (m.dims.ph * m.dims.nx + q)) hk hb]
        rfl
      refine post_pure ⟨hr', hc', by simp [Mat.setBlockRaw, Mat.const, hUr],
        by simp [Mat.setBlockRaw, Mat.const, hUc], ?_, ?_, ?_, ?_⟩
      · intro a ha; dsimp only; rw [hx' 0 a ha, hz]
      · intro k a hk ha; dsimp only; rw [hx' _ a ha, hs k a hk]; rfl
      · intro k b hk hb
        dsimp only
        simp only [Mat.setBlockRaw, Mat.setRowRaw, Mat.const, Mat.transpose]
        rw [if_pos (by omega)]
        by_cases hkp : k = m.dims.ph
        · subst hkp
          rw [if_pos (by omega), if_pos (by omega)]
          simp only [Nat.sub_zero]
          rw [hu _ b (by omega) hb]
          unfold NlSpec.inputAt
          rw [show min (m.dims.ph - 1) (m.dims.ch - 1) = min m.dims.ph (m.dims.ch - 1) by omega]
        · rw [if_neg (by omega), if_pos (by omega)]
          simp only [Nat.sub_zero]
          exact hu k b (by omega) hb
      · dsimp only
        rw [hx]
        unfold Dims.nZ NlSpec.slackIx
        rw [Nat.mul_comm m.dims.ch]; rfl

/-- The result only depends on the sizes of the matrices passed by reference. -/
theorem unwrapVector_buf (m : Mapping K) (x x0 : Vec K) {Xb Ub Xb' Ub' : Mat K}
    (h1 : Xb.rows = Xb'.rows) (h2 : Xb.cols = Xb'.cols) (h3 : Ub.rows = Ub'.rows) (h4 : Ub.cols = Ub'.cols) :
    unwrapVector m x x0 Xb Ub = unwrapVector m x x0 Xb' Ub' := by
  unfold unwrapVector
  rw [h1, h2, h3, h4]

end Mapping
end Mpc
