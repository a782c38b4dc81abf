import Verif.Proofs.NlLoops
import Verif.Spec.NlDiff
import Verif.Proofs.Mapping

/-
Characterisation of `Model::getOutput` and `Objective::evaluate`.
-/
namespace Mpc
open Exec
set_option linter.unusedSectionVars false

variable {d : Dims} {K : Type}

theorem toUnsigned_of_lt {i : Nat} (h : i < 2 ^ 32) : toUnsigned i = i := Nat.mod_eq_of_lt h

/-- a matrix has the sizes of a trajectory -/
def Mat.Is (m : Mat K) (r c : Nat) : Prop := m.rows = r ∧ m.cols = c

theorem NlModel.getOutput_ok [Zero K] (M : NlModel d K) (X U : Mat K) (hp : d.ph < 2 ^ 31)
    (hX : X.Is (d.ph + 1) d.nx) (hU : U.Is (d.ph + 1) d.nu) :
    ∃ Y, M.getOutput X U = .ok Y ∧ Y.Is (d.ph + 1) d.ny ∧
      Y.viewF (d.ph + 1) d.ny = NlSpec.outputs M.outUser (X.viewF (d.ph + 1) d.nx) (U.viewF (d.ph + 1) d.nu) := by
  obtain ⟨hX1, hX2⟩ := hX
  obtain ⟨hU1, hU2⟩ := hU
  unfold NlModel.getOutput
  cases M.outUser with
  | none =>
    exact ⟨_, rfl, ⟨rfl, rfl⟩, rfl⟩
  | some g =>
    dsimp only
    obtain ⟨Y, hY, h1, h2, h3⟩ := forRange_post (d.ph + 1) (Mat.const (d.ph + 1) d.ny (0 : K))
      (fun i Y => do
        let x ← (← X.row i).view d.nx
        let u ← (← U.row i).view d.nu
        Y.setRow i (Vec.ofF (g (fun _ => 0) x u (toUnsigned i))))
      (fun i Y => Y.rows = d.ph + 1 ∧ Y.cols = d.ny ∧
        ∀ (k : Fin (d.ph + 1)) (c : Fin d.ny), (k : Nat) < i →
          Y.get k c = NlSpec.outputs (some g) (X.viewF (d.ph + 1) d.nx) (U.viewF (d.ph + 1) d.nu) k c)
      ⟨rfl, rfl, fun _ _ h => absurd h (Nat.not_lt_zero _)⟩
      (by
        rintro i Y hi ⟨h1, h2, h3⟩
        rw [Mat.row_ok (by omega), ok_bind, Vec.view_ok (by exact hX2), ok_bind, Mat.row_ok (by omega), ok_bind,
          Vec.view_ok (by exact hU2), ok_bind, Mat.setRow_ok (by omega) (by simp [h2])]
        refine post_ok ⟨h1, h2, ?_⟩
        intro k c hk
        simp only [Mat.setRowRaw]
        by_cases he : (k : Nat) = i
        · rw [if_pos he, Vec.ofF_get, toUnsigned_of_lt (by omega)]
          subst he
          rfl
        · rw [if_neg he]; exact h3 k c (by omega))
    exact ⟨Y, hY, ⟨h1, h2⟩, by funext k c; exact h3 k c k.2⟩

namespace Objective

theorem callObj_ok [Zero K] (f : ObjFn d K) (M : NlModel d K) (X U : Mat K) (e : K) (hp : d.ph < 2 ^ 31)
    (hX : X.Is (d.ph + 1) d.nx) (hU : U.Is (d.ph + 1) d.nu) :
    callObj (some f) M X U e
      = .ok (NlSpec.costOf f M.outUser (X.viewF (d.ph + 1) d.nx) (U.viewF (d.ph + 1) d.nu) e) := by
  obtain ⟨Y, hY, hYs, hYv⟩ := M.getOutput_ok X U hp hX hU
  unfold callObj
  rw [hY, ok_bind]
  dsimp only
  rw [Mat.view_ok hX.1 hX.2, ok_bind, Mat.view_ok hYs.1 hYs.2, ok_bind, Mat.view_ok hU.1 hU.2, ok_bind, hYv]
  rfl

variable [Field K] [LinearOrder K] [IsStrictOrderedRing K]

/-- step of component `j` of a sequence in the gradient of the objective (Objective.hpp:208, 228, 242) -/
def stepSeq {r c : Nat} (X : Traj r c K) (j : Nat) : K := NlSpec.stepOf (1 / 1000000) (NlSpec.linear X j)

/-- step of the slack (Objective.hpp:252-253) -/
def stepSlack (e : K) : K := max (1 / 1000000) |e| * (1 / 1000000)

theorem computeJacobian_post (f : ObjFn d K) (M : NlModel d K) (X U : Mat K) (e : K) (hp : d.ph < 2 ^ 31)
    (hp0 : 0 < d.ph) (hX : X.Is (d.ph + 1) d.nx) (hU : U.Is (d.ph + 1) d.nu) :
    Post (computeJacobian (some f) M X U
        (NlSpec.costOf f M.outUser (X.viewF (d.ph + 1) d.nx) (U.viewF (d.ph + 1) d.nu) e) e)
      (fun r => r.1.Is d.nx d.ph ∧ r.2.1.Is d.nu d.ph ∧
        NlSpec.ObjDiff d (NlSpec.costOf f M.outUser) (X.viewF (d.ph + 1) d.nx) (U.viewF (d.ph + 1) d.nu) e
          (stepSeq (X.viewF (d.ph + 1) d.nx)) (stepSeq (U.viewF (d.ph + 1) d.nu)) (stepSlack e)
          (fun k a => r.1.get a k) (fun k b => r.2.1.get b k) r.2.2) := by
  unfold computeJacobian
  dsimp only
  have hdv : (0 : K) < 1 / 1000000 := by positivity
  refine Post.bind (forward_loop (fun Y => callObj (some f) M Y U e)
    (fun Y => NlSpec.costOf f M.outUser (Y.viewF (d.ph + 1) d.nx) (U.viewF (d.ph + 1) d.nu) e)
    d.ph d.nx 1 X (Mat.const d.nx d.ph 0) (1 / 1000000) _ (fun _ j => X.absMax1.dataVec.at? j)
    (fun _ j => X.absMax1.dataVec.get j) (by rw [hX.1]) hX.2 rfl (by exact Nat.le_refl _)
    (fun i j _ hj => Mat.absMax1_data_ok hX.1 hX.2 hj)
    (fun Y h1 h2 => callObj_ok f M Y U e hp ⟨h1.trans hX.1, h2.trans hX.2⟩ hU)) ?_
  rintro ⟨X', Jx⟩ ⟨hX', hJr, hJc, hJ, -⟩
  dsimp only at hX' hJr hJc hJ ⊢
  subst hX'
  refine Post.bind (forward_loop (fun Y => callObj (some f) M X' Y e)
    (fun Y => NlSpec.costOf f M.outUser (X'.viewF (d.ph + 1) d.nx) (Y.viewF (d.ph + 1) d.nu) e)
    (d.ph - 1) d.nu 0 U (Mat.const d.nu d.ph 0) (1 / 1000000) _ (fun _ j => U.absMax1.dataVec.at? j)
    (fun _ j => U.absMax1.dataVec.get j) (by rw [hU.1]; omega) hU.2 rfl (by simp [Mat.const])
    (fun i j _ hj => Mat.absMax1_data_ok hU.1 hU.2 hj)
    (fun Y h1 h2 => callObj_ok f M X' Y e hp hX ⟨h1.trans hU.1, h2.trans hU.2⟩)) ?_
  rintro ⟨U', Jm⟩ ⟨hU', hMr, hMc, hM, -⟩
  dsimp only at hU' hMr hMc hM ⊢
  subst hU'
  refine Post.bind (forward_last_loop (fun Y => callObj (some f) M X' Y e)
    (fun Y => NlSpec.costOf f M.outUser (X'.viewF (d.ph + 1) d.nx) (Y.viewF (d.ph + 1) d.nu) e)
    d.nu (d.ph - 1) d.ph (d.ph - 1) U' Jm (1 / 1000000) _ (fun j => U'.absMax1.dataVec.at? j)
    (fun j => U'.absMax1.dataVec.get j) (by omega) (by rw [hU.1]; omega) (by rw [hU.1]; omega) hU.2 hMr
    (by rw [hMc]; simp [Mat.const]; omega)
    (fun j hj => Mat.absMax1_data_ok hU.1 hU.2 hj)
    (fun Y h1 h2 => callObj_ok f M X' Y e hp hX ⟨h1.trans hU.1, h2.trans hU.2⟩)) ?_
  rintro ⟨U'', Jm'⟩ ⟨hU'', hNr, hNc, hN, hN2⟩
  dsimp only at hU'' hNr hNc hN hN2 ⊢
  subst hU''
  rw [callObj_ok f M X' U'' _ hp hX hU, ok_bind, callObj_ok f M X' U'' _ hp hX hU, ok_bind]
  have hde : 0 < max (1 / 1000000) |e| * (1 / 1000000 : K) :=
    mul_pos (lt_of_lt_of_le hdv (le_max_left _ _)) hdv
  refine post_pure ⟨⟨hJr, by rw [hJc]; rfl⟩, ⟨hNr, by rw [hNc, hMc]; rfl⟩,
    fun _ => NlSpec.stepOf_pos hdv _, ?_, fun _ => NlSpec.stepOf_pos hdv _, ?_, ?_, hde, rfl⟩
  · intro k a hk ha
    dsimp only
    rw [hJ k a hk ha, Mat.viewF_bumpM, Mat.step_data_eq _ hX.1 ha]
    rfl
  · intro k b hk hb
    dsimp only
    rw [hN2 b k (by omega), hM k b (by omega) hb, Mat.viewF_bumpM, Mat.step_data_eq _ hU.1 hb]
    rfl
  · intro b hb
    dsimp only
    rw [hN b hb, Mat.viewF_bump2, Mat.step_data_eq _ hU.1 hb]
    rfl

/-- `for j < n, i < m: g(counter++) = J(i, j)` -/
theorem pack_loop (n m c0 : Nat) (g : Vec K) (J : Mat K) (hJr : J.rows = m) (hJc : J.cols = n)
    (hg : c0 + n * m ≤ g.size) :
    Post (forRange n (c0, g) fun j s => forRange m s fun i s => do
        let g ← s.2.set s.1 (← J.at? i j)
        return (s.1 + 1, g))
      (fun s => s.1 = c0 + n * m ∧ s.2.size = g.size ∧
        (∀ j i, j < n → i < m → s.2.get (c0 + (j * m + i)) = J.get i j) ∧
        (∀ l, (l < c0 ∨ c0 + n * m ≤ l) → s.2.get l = g.get l)) := by
  refine (forRange2_post n m (c0, g) _ (fun j i s => s.1 = c0 + (j * m + i) ∧ s.2.size = g.size ∧
        (∀ j' i', i' < m → (j' < j ∨ (j' = j ∧ i' < i)) → s.2.get (c0 + (j' * m + i')) = J.get i' j') ∧
        (∀ l, (l < c0 ∨ c0 + n * m ≤ l) → s.2.get l = g.get l)) ?_ ?_ ?_).mono ?_
  · exact ⟨by simp, rfl, fun _ _ _ h => by omega, fun _ _ => rfl⟩
  · rintro j i ⟨c, v⟩ hj hi ⟨rfl, h2, h3, h4⟩
    dsimp only at h2 h3 h4 ⊢
    have hlt : j * m + i < n * m := block_lt hi hj
    rw [Mat.at_ok (by omega) (by omega), ok_bind, Vec.set_ok (by omega), ok_bind]
    refine post_pure ⟨by dsimp only; omega, h2, ?_, ?_⟩
    · intro j' i' hi' h
      simp only [Vec.setRaw]
      by_cases he : j' = j ∧ i' = i
      · obtain ⟨rfl, rfl⟩ := he; rw [if_pos rfl]
      · rw [if_neg (by
          intro h; have := (block_eq_iff hi' hi).1 (Nat.add_left_cancel h); exact he this)]
        exact h3 j' i' hi' (by omega)
    · intro l hl
      simp only [Vec.setRaw]
      rw [if_neg (by omega)]; exact h4 l hl
  · rintro j ⟨c, v⟩ hj ⟨h1, h2, h3, h4⟩
    dsimp only at h1 h2 h3 h4
    refine ⟨by dsimp only; rw [h1]; ring, h2, ?_, h4⟩
    intro j' i' hi' h
    refine h3 j' i' hi' ?_
    rcases h with h | h
    · rcases Nat.lt_succ_iff_lt_or_eq.1 h with h | h
      · exact Or.inl h
      · exact Or.inr ⟨h, hi'⟩
    · omega
  · rintro ⟨c, v⟩ ⟨h1, h2, h3, h4⟩
    exact ⟨by simpa using h1, h2, fun j i hj hi => h3 j i hi (Or.inl hj), h4⟩

end Objective

/-- Chain rule through move blocking: row `j*nu+b` of `Iz2u^T * v`. -/
theorem Mapping.Good.gather [Field K] {m : Mapping K} (hm : m.Good) (v : Nat → K) {j b : Nat} (hj : j < m.dims.ch)
    (hb : b < m.dims.nu) :
    sumTo m.Iz2u.rows (fun q => m.Iz2u.get q (j * m.dims.nu + b) * v q)
      = m.inputScaling.get b * ∑ k ∈ Finset.range m.dims.ph,
          if min k (m.dims.ch - 1) = j then v (k * m.dims.nu + b) else 0 := by
  rw [sumTo_eq, hm.iz_rows, sum_range_mul, Finset.mul_sum]
  refine Finset.sum_congr rfl fun k hk => ?_
  rw [Finset.sum_eq_single b]
  · rw [hm.iz k b j b (Finset.mem_range.1 hk) hb hj hb]
    by_cases h : min k (m.dims.ch - 1) = j
    · rw [if_pos ⟨h.symm, rfl⟩, if_pos h]
    · rw [if_neg (fun hh => h hh.1.symm), if_neg h]; simp
  · intro c hc hne
    rw [hm.iz k c j b (Finset.mem_range.1 hk) (Finset.mem_range.1 hc) hj hb, if_neg (fun hh => hne hh.2)]
    simp
  · intro h; exact absurd (Finset.mem_range.2 hb) h

namespace Objective
variable [Field K] [LinearOrder K] [IsStrictOrderedRing K]

/-- sizes of the members -/
structure Sized (o : Objective d K) : Prop where
  x0 : o.x0.size = d.nx
  X : o.Xmat.Is (d.ph + 1) d.nx
  U : o.Umat.Is (d.ph + 1) d.nu

theorem viewF_states {mp : Mapping K} {z x0 : Nat → K} {r : Mat K × Mat K × K} (h : mp.Unwrapped z x0 r) :
    r.1.viewF (mp.dims.ph + 1) mp.dims.nx = NlSpec.codeStates mp.dims mp.stateScaling.get x0 z := by
  funext k a
  simp only [Mat.viewF, NlSpec.codeStates]
  by_cases hk : (k : Nat) = 0
  · rw [if_pos hk, hk]; exact h.x_zero a a.2
  · rw [if_neg hk]
    have := h.x_succ (k - 1) a (by omega) a.2
    rwa [show (k : Nat) - 1 + 1 = k by omega] at this

theorem viewF_inputs {mp : Mapping K} {z x0 : Nat → K} {r : Mat K × Mat K × K} (h : mp.Unwrapped z x0 r) :
    r.2.1.viewF (mp.dims.ph + 1) mp.dims.nu = NlSpec.inputs mp.dims mp.inputScaling.get z := by
  funext k b
  exact h.u k b k.2 b.2

/-- layout of the gradient handed to the solver -/
structure GradOf (mp : Mapping K) (gx gu : Nat → Nat → K) (ge : K) (g : Nat → K) : Prop where
  states : ∀ k a, k < mp.dims.ph → a < mp.dims.nx → g (NlSpec.stateIx mp.dims k a) = gx k a
  inputs : ∀ j b, j < mp.dims.ch → b < mp.dims.nu → g (NlSpec.inputIx mp.dims j b)
    = mp.inputScaling.get b * ∑ k ∈ Finset.range mp.dims.ph, if min k (mp.dims.ch - 1) = j then gu k b else 0
  slack : g (NlSpec.slackIx mp.dims) = ge

theorem evaluate_post (o : Objective d K) (ho : o.Sized) (f : ObjFn d K) (hf : o.fuser = some f) (mp : Mapping K)
    (hm : mp.Good) (hd : mp.dims = d) (M : NlModel d K) (x : Vec K) (hx : x.size = d.nZ) (hp : d.ph < 2 ^ 31)
    (hg : Bool) :
    Post (o.evaluate mp M x hg) (fun r => r.2.Sized ∧ r.2.fuser = o.fuser ∧ r.2.x0 = o.x0 ∧
      r.1.value = NlSpec.costOf f M.outUser (NlSpec.codeStates d mp.stateScaling.get o.x0.get x.get)
        (NlSpec.inputs d mp.inputScaling.get x.get) (x.get (NlSpec.slackIx d)) ∧
      (if hg then ∃ g gx gu ge, r.1.grad = some g ∧ g.size = d.nZ ∧
        NlSpec.ObjDiff d (NlSpec.costOf f M.outUser) (NlSpec.codeStates d mp.stateScaling.get o.x0.get x.get)
          (NlSpec.inputs d mp.inputScaling.get x.get) (x.get (NlSpec.slackIx d))
          (stepSeq (NlSpec.codeStates d mp.stateScaling.get o.x0.get x.get))
          (stepSeq (NlSpec.inputs d mp.inputScaling.get x.get)) (stepSlack (x.get (NlSpec.slackIx d))) gx gu ge ∧
        GradOf mp gx gu ge g.get
       else r.1.grad = none)) := by
  subst hd
  have hch := hm.ch_pos
  have hle := hm.ch_le
  unfold evaluate
  dsimp only
  refine Post.bind (Mapping.unwrapVector_post mp hm x o.x0 o.Xmat o.Umat hx ho.x0 ho.X.1 ho.X.2 ho.U.1 ho.U.2) ?_
  rintro ⟨X, U, e⟩ hw
  have hXv := viewF_states hw
  have hUv := viewF_inputs hw
  have hXs : X.Is (mp.dims.ph + 1) mp.dims.nx := ⟨hw.xr, hw.xc⟩
  have hUs : U.Is (mp.dims.ph + 1) mp.dims.nu := ⟨hw.ur, hw.uc⟩
  have he : e = x.get (NlSpec.slackIx mp.dims) := hw.e
  dsimp only at hXv hUv ⊢
  rw [hf, callObj_ok f M X U e hp hXs hUs, ok_bind]
  cases hg with
  | false =>
    simp only [Bool.false_eq_true, if_false]
    refine post_pure ⟨⟨ho.x0, hXs, hUs⟩, rfl, rfl, ?_, rfl⟩
    dsimp only; rw [hXv, hUv, he]
  | true =>
    simp only [if_true]
    refine Post.bind (computeJacobian_post f M X U e hp (by omega) hXs hUs) ?_
    rintro ⟨Jx, Jm, Je⟩ ⟨hJx, hJm, hD⟩
    dsimp only at hJx hJm hD ⊢
    refine Post.bind (Q := fun X' => X'.Is (mp.dims.ph + 1) mp.dims.nx) ?_ ?_
    · rw [hXs.2]
      refine forRange_post _ _ _ (fun _ (X' : Mat K) => X'.Is (mp.dims.ph + 1) mp.dims.nx) hXs ?_
      rintro i X' hi ⟨h1, h2⟩
      have := hm.stsz
      rw [Vec.at_ok (by omega), ok_bind, Mat.col_ok (by omega), ok_bind, Mat.setCol_ok (by omega) rfl]
      exact post_ok ⟨h1, h2⟩
    · intro X' hX'
      refine Post.bind (by
        rw [hJx.1, hJx.2]
        exact pack_loop mp.dims.ph mp.dims.nx 0 (Vec.const mp.dims.nZ 0) Jx hJx.1 hJx.2
          (by simp [Vec.const, Dims.nZ]; omega)) ?_
      rintro ⟨c1, g1⟩ ⟨h1, h2, h3, h4⟩
      dsimp only at h1 h2 h3 h4 ⊢
      refine Post.bind (by
        rw [hJm.1, hJm.2]
        exact pack_loop mp.dims.ph mp.dims.nu 0 (Vec.const (mp.dims.ph * mp.dims.nu) 0) Jm hJm.1 hJm.2
          (by simp [Vec.const])) ?_
      rintro ⟨c2, v⟩ ⟨-, k2, k3, -⟩
      dsimp only at k2 k3 ⊢
      rw [Mat.mulVec_ok (by simp only [Mat.transpose]; rw [hm.iz_rows, k2]; rfl), ok_bind]
      have hres : ∀ j b, j < mp.dims.ch → b < mp.dims.nu →
          sumTo mp.Iz2u.transpose.cols (fun q => mp.Iz2u.transpose.get (j * mp.dims.nu + b) q * v.get q)
            = mp.inputScaling.get b * ∑ k ∈ Finset.range mp.dims.ph,
                if min k (mp.dims.ch - 1) = j then Jm.get b k else 0 := by
        intro j b hj hb
        simp only [Mat.transpose]
        rw [hm.gather v.get hj hb]
        congr 1
        refine Finset.sum_congr rfl fun k hk => ?_
        have := k3 k b (Finset.mem_range.1 hk) hb
        rw [Nat.zero_add] at this
        rw [this]
      refine Post.bind (Q := fun s : Nat × Vec K => s.2.size = mp.dims.nZ ∧
          (∀ k a, k < mp.dims.ph → a < mp.dims.nx → s.2.get (k * mp.dims.nx + a) = Jx.get a k) ∧
          (∀ q, q < mp.dims.ch * mp.dims.nu → s.2.get (mp.dims.ph * mp.dims.nx + q)
            = sumTo mp.Iz2u.transpose.cols (fun p => mp.Iz2u.transpose.get q p * v.get p))) ?_ ?_
      · refine (forRange_post _ (c1, g1) _ (fun q (s : Nat × Vec K) => s.1 = mp.dims.ph * mp.dims.nx + q ∧
          s.2.size = mp.dims.nZ ∧
          (∀ k a, k < mp.dims.ph → a < mp.dims.nx → s.2.get (k * mp.dims.nx + a) = Jx.get a k) ∧
          (∀ q', q' < q → s.2.get (mp.dims.ph * mp.dims.nx + q')
            = sumTo mp.Iz2u.transpose.cols (fun p => mp.Iz2u.transpose.get q' p * v.get p))) ?_ ?_).mono ?_
        · refine ⟨by simpa using h1, h2, ?_, fun _ h => by omega⟩
          intro k a hk ha
          have := h3 k a hk ha
          rwa [Nat.zero_add] at this
        · rintro q ⟨c, w⟩ hq ⟨rfl, l2, l3, l4⟩
          dsimp only at l2 l3 l4 ⊢
          have hq' : q < mp.dims.nu * mp.dims.ch := by rw [Nat.mul_comm]; exact hq
          rw [Vec.at_ok (by simp only [Mat.transpose]; rw [hm.iz_cols]; exact hq'), ok_bind,
            Vec.set_ok (by rw [l2]; unfold Dims.nZ; omega), ok_bind]
          refine post_pure ⟨by dsimp only; omega, l2, ?_, ?_⟩
          · intro k a hk ha
            simp only [Vec.setRaw]
            have := block_lt ha hk
            rw [if_neg (by omega)]; exact l3 k a hk ha
          · intro q' hq2
            simp only [Vec.setRaw]
            by_cases h : q' = q
            · subst h; rw [if_pos rfl]
            · rw [if_neg (by omega)]; exact l4 q' (by omega)
        · rintro ⟨c, w⟩ ⟨-, l2, l3, l4⟩
          exact ⟨l2, l3, l4⟩
      · rintro ⟨c, w⟩ ⟨l2, l3, l4⟩
        dsimp only at l2 l3 l4 ⊢
        rw [Vec.set_ok (by rw [l2]; unfold Dims.nZ; omega), ok_bind]
        refine post_pure ⟨⟨ho.x0, hX', hUs⟩, rfl, rfl, ?_, ?_⟩
        · dsimp only; rw [hXv, hUv, he]
        · refine ⟨_, fun k a => Jx.get a k, fun k b => Jm.get b k, Je, rfl, l2, ?_, ?_, ?_, ?_⟩
          · rw [hXv, hUv, he] at hD; exact hD
          · intro k a hk ha
            simp only [Vec.setRaw]
            have := block_lt ha hk
            rw [if_neg (by unfold NlSpec.stateIx Dims.nZ; omega)]
            exact l3 k a hk ha
          · intro j b hj hb
            simp only [Vec.setRaw]
            have := block_lt hb hj
            have e1 : mp.dims.ch * mp.dims.nu = mp.dims.nu * mp.dims.ch := Nat.mul_comm _ _
            rw [if_neg (by unfold NlSpec.inputIx Dims.nZ; omega)]
            rw [← hres j b hj hb]
            exact l4 _ this
          · simp only [Vec.setRaw]
            rw [if_pos (by unfold NlSpec.slackIx Dims.nZ; rw [Nat.mul_comm mp.dims.ch]; rfl)]

end Objective
end Mpc
