import Mathlib.Algebra.BigOperators.Ring.Finset
import Mathlib.Tactic.Ring
import Mathlib.Tactic.FieldSimp
import Mathlib.Tactic.Linarith
import Mathlib.Tactic.LinearCombination
import Verif.Spec.Qp
import Verif.Proofs.LinFrame

/-
The rows of the problem handed to OSQP in terms of the configuration.
-/
namespace Mpc
open Exec Finset
set_option linter.unusedSectionVars false

/-- What is known about an `optimize` call that returned. -/
structure Solved {K : Type} [Zero K] [One K] [Add K] [Mul K] [Neg K] [Div K] [NatCast K] [ExactOps K] [DecidableEq K]
    (d : Dims) (c : Spec.LinConfig K) (x0 u0 : Vec K) (st : Int) (obj : K) (sol : Option ((Nat → K) × (Nat → K))) (m m' : LMpc K) (r : LResult K) (call : OsqpCall K) :
    Prop where
  valid : d.Valid
  inv : LMpc.Inv d m c
  inv' : LMpc.Inv d m' c
  get : m.b.GetSpec x0 u0 m.o.outSysRef m.o.cmdSysRef m.o.deltaCmdSysRef m.o.extInputMeas m'.b
  call : LOpt.CallSpec d m.o m'.b call
  res : r = m'.o.result
  opt : match sol with
      | none => m'.o = { m.o.released with
          seqState := Mat.const (d.ph + 1) d.nx 0
          seqInput := Mat.const (d.ph + 1) d.nu 0
          seqOutput := Mat.const (d.ph + 1) d.ny 0
          result := { solver_status := -1, is_feasible := false, cost := .posInf, status := .ERROR,
                      cmd := m.o.result.cmd } }
      | some (x, y) => ∃ S U Y, LOpt.SeqSpec d m.o m'.b x (d.ph + 1) S U Y ∧
          m'.o = { m.o.released with
            prevX := ⟨d.nV, x⟩, prevY := ⟨d.nC, y⟩, seqState := S, seqInput := U, seqOutput := Y
            result := { solver_status := st, is_feasible := osqpFeasible st, cost := .fin obj,
                        status := convertOsqpStatus st, cmd := ⟨d.nu, fun j => U.get 0 j⟩ } }

section
variable {K : Type} [Zero K] [One K] [Add K] [Mul K] [Neg K] [Div K] [NatCast K] [ExactOps K] [DecidableEq K]

theorem configured_inv {d : Dims} {ops : List (LOp K)} {outs : List (LOut K)} {m : LMpc K}
    (h : Spec.Configured d ops outs m) : LMpc.Inv d m (Spec.configOf ops outs) := by
  obtain ⟨hv, hs, u, j, m0, h0, he⟩ := h
  exact (LMpc.exec_inv hv ops ((LMpc.new_inv hv u j).of_eq h0) hs he).1

theorem solved_of_step {d : Dims} (hv : d.Valid) {c : Spec.LinConfig K} {m m' : LMpc K} (hm : LMpc.Inv d m c) {x0 u0 : Vec K}
    (hx : x0.size = d.nx) (hu : u0.size = d.nu) {oc : OsqpOutcome K} {r call}
    (h : m.step (.optimize x0 u0 oc) = .ok (m', .result r call)) :
    ∃ st obj sol, oc = .answered st obj sol ∧ Solved d c x0 u0 st obj sol m m' r call := by
  have hi := LMpc.step_inv (op := .optimize x0 u0 oc) hv hm ⟨hx, hu⟩ (fun s hs => by cases hs) h
  have hr2 := h
  simp only [LMpc.step, bind_eq_ok] at hr2
  obtain ⟨q, hq, hr2⟩ := hr2
  obtain ⟨⟨st, obj, sol, rfl⟩, hwf⟩ := LOpt.run_ok_cases hv.ph_pos hm.opt hm.builder.shaped hm.builder.dims hx hu hq
  have hp := (LOpt.run_post hv.ph_pos hm.opt hm.builder.shaped hm.builder.dims hx hu (status := st) (obj := obj)
    (sol := sol) hwf).of_eq hq
  refine ⟨st, obj, sol, rfl, ?_⟩
  obtain ⟨o', b', call'⟩ := q
  cases hr2
  exact ⟨hv, hm, hi, hp.1, hp.2.1, rfl, hp.2.2⟩

theorem asked_solved {d : Dims} {ops : List (LOp K)} {outs : List (LOut K)} {x0 u0 : Vec K} {oc : OsqpOutcome K}
    {m m' : LMpc K} {r call} (h : Spec.Asked d ops outs x0 u0 oc m m' r call) :
    ∃ st obj sol, oc = .answered st obj sol ∧ Solved d (Spec.configOf ops outs) x0 u0 st obj sol m m' r call :=
  solved_of_step h.valid (configured_inv h.toConfigured) h.x0Size h.u0Size h.optimized

end

/-! ### Sums -/

/-- A sum with a single non-zero block. -/
theorem sum_block_ite {K : Type} [AddCommMonoid K] {n i : Nat} (hi : i < n) (f : Nat → K) :
    ∑ j ∈ range n, (if i = j then f j else 0) = f i := by
  rw [Finset.sum_ite_eq]
  simp [hi]

namespace Solved
variable {K : Type} [Zero K] [One K] [Add K] [Mul K] [Neg K] [Div K] [NatCast K] [ExactOps K] [DecidableEq K] {d : Dims}
  {c : Spec.LinConfig K} {x0 u0 : Vec K} {st : Int} {obj : K}
  {sol : Option ((Nat → K) × (Nat → K))} {m m' : LMpc K} {r : LResult K} {call : OsqpCall K}

theorem entryA (h : Solved d c x0 u0 st obj sol m m' r call) {i j : Nat} (hi : i < d.nC) (hj : j < d.nV) :
    Spec.cscEntry call.A i j = m.b.A.get i j := by
  have hd := h.inv'.builder.dims
  have hs := h.inv'.builder.shaped.A
  rw [← h.get.A]
  exact h.call.A.entry (Sparse.ofDense_ordered _) (by show j < m'.b.A.cols; rw [hs.2, hd]; exact hj)
    (colHas_ofDense m'.b.A (by rw [hs.1, hd]; exact hi) j)

theorem entryP (h : Solved d c x0 u0 st obj sol m m' r call) {i j : Nat} (hi : i < d.nV) (hj : j < d.nV) :
    Spec.cscEntry call.P i j = if i ≤ j then m.b.P.get i j else 0 := by
  have hd := h.inv'.builder.dims
  have hs := h.inv'.builder.shaped.P
  rw [← h.get.P]
  exact h.call.P.entry (Sparse.upper_ordered (Sparse.ofDense_ordered _))
    (by show j < m'.b.P.cols; rw [hs.2, hd]; exact hj)
    (colHas_upper (colHas_ofDense m'.b.P (by rw [hs.1, hd]; exact hi) j))

end Solved

namespace Solved
variable {K : Type} [Field K] [DecidableEq K] {d : Dims} {c : Spec.LinConfig K} {x0 u0 : Vec K} {st : Int} {obj : K}
  {sol : Option ((Nat → K) × (Nat → K))} {m m' : LMpc K} {r : LResult K} {call : OsqpCall K}

/-- splitting a sum over the decision variables -/
theorem sum_vars (d : Dims) (f : Nat → K) : ∑ k ∈ range d.nV, f k =
    (∑ i ∈ range (d.ph + 1), ∑ a ∈ range (d.nu + d.nx), f (i * (d.nu + d.nx) + a)) +
    ∑ i ∈ range d.ph, ∑ a ∈ range d.nu, f (d.nS + (i * d.nu + a)) := by
  have hV : d.nV = d.nS + d.nD := rfl
  rw [hV, Finset.sum_range_add]
  congr 1
  · exact sum_range_mul _ _ _
  · exact sum_range_mul _ _ (fun k => f (d.nS + k))

theorem rowValue_split (h : Solved d c x0 u0 st obj sol m m' r call) {ρ : Nat} (hr : ρ < d.nC) (z : Nat → K) :
    Spec.rowValue call z ρ =
    (∑ i ∈ range (d.ph + 1), ∑ a ∈ range (d.nu + d.nx),
      m.b.A.get ρ (i * (d.nu + d.nx) + a) * z (i * (d.nu + d.nx) + a)) +
    ∑ i ∈ range d.ph, ∑ a ∈ range d.nu, m.b.A.get ρ (d.nS + (i * d.nu + a)) * z (d.nS + (i * d.nu + a)) := by
  unfold Spec.rowValue
  rw [h.call.n, ← sum_vars d (fun k => m.b.A.get ρ k * z k)]
  refine Finset.sum_congr rfl fun k hk => ?_
  rw [h.entryA hr (Finset.mem_range.1 hk)]

/-- dynamics row of step 0 -/
theorem row_start (h : Solved d c x0 u0 st obj sol m m' r call) {a : Nat} (ha : a < d.nu + d.nx) (z : Nat → K) :
    Spec.rowValue call z a = - z a := by
  have hD := h.inv.builder.derived.Aeq
  have hdim := h.inv.builder.dims
  have hS : d.nS = (d.ph + 1) * (d.nu + d.nx) := rfl
  have hlt : a < d.nS := by
    have := block_lt (i := 0) (n := d.ph + 1) ha (by omega)
    omega
  have hxx := hD.xx 0 a
  have hxd := hD.xd 0 a
  simp only [hdim, Nat.zero_mul, Nat.zero_add] at hxx hxd
  rw [h.rowValue_split (by simp only [Dims.nC]; omega)]
  have h1 : ∀ i ∈ range (d.ph + 1), ∑ e ∈ range (d.nu + d.nx),
      m.b.A.get a (i * (d.nu + d.nx) + e) * z (i * (d.nu + d.nx) + e) = if 0 = i then - z a else 0 := by
    intro i hi
    have hi' := Finset.mem_range.1 hi
    rw [Finset.sum_congr rfl (g := fun e => if a = e then (if 0 = i then - z (i * (d.nu + d.nx) + e) else 0) else 0)]
    · rw [Finset.sum_ite_eq, if_pos (Finset.mem_range.2 ha)]
      split_ifs with h0
      · subst h0; simp
      · rfl
    · intro e he
      rw [hxx i e (by omega) (by omega) ha (Finset.mem_range.1 he)]
      by_cases h0 : i = 0
      · subst h0
        by_cases h1 : a = e <;> simp [h1]
      · have h0' : ¬ 0 = i := by omega
        by_cases h1 : a = e <;> simp [h0', h1]
  rw [Finset.sum_congr rfl h1, sum_block_ite (by omega) (fun _ => - z a)]
  refine (congrArg (_ + ·) (Finset.sum_eq_zero ?_)).trans (add_zero _)
  intro i hi
  refine Finset.sum_eq_zero fun e he => ?_
  rw [hxd i e (by omega) (Finset.mem_range.1 hi) ha (Finset.mem_range.1 he)]
  simp

/-- dynamics row of step `i + 1` -/
theorem row_dynamics (h : Solved d c x0 u0 st obj sol m m' r call) {i a : Nat} (hi : i < d.ph) (ha : a < d.nu + d.nx)
    (z : Nat → K) :
    Spec.rowValue call z ((i + 1) * (d.nu + d.nx) + a) =
      - z ((i + 1) * (d.nu + d.nx) + a) +
      ∑ e ∈ range (d.nu + d.nx), m.b.ssA.get a e * z (i * (d.nu + d.nx) + e) +
      ∑ e ∈ range d.nu, m.b.ssB.get a e * z (d.nS + (i * d.nu + e)) := by
  have hD := h.inv.builder.derived.Aeq
  have hdim := h.inv.builder.dims
  have hS : d.nS = (d.ph + 1) * (d.nu + d.nx) := rfl
  have hlt : (i + 1) * (d.nu + d.nx) + a < d.nS := block_lt ha (by omega)
  have hxx := hD.xx (i + 1) a
  have hxd := hD.xd (i + 1) a
  simp only [hdim] at hxx hxd
  rw [h.rowValue_split (by simp only [Dims.nC]; omega)]
  congr 1
  · have h1 : ∀ j ∈ range (d.ph + 1), ∑ e ∈ range (d.nu + d.nx),
        m.b.A.get ((i + 1) * (d.nu + d.nx) + a) (j * (d.nu + d.nx) + e) * z (j * (d.nu + d.nx) + e) =
          (if i + 1 = j then - z (j * (d.nu + d.nx) + a) else 0) +
          (if i = j then ∑ e ∈ range (d.nu + d.nx), m.b.ssA.get a e * z (j * (d.nu + d.nx) + e) else 0) := by
      intro j hj
      have hj' := Finset.mem_range.1 hj
      rw [Finset.sum_congr rfl (g := fun e =>
        (if a = e then (if i + 1 = j then - z (j * (d.nu + d.nx) + e) else 0) else 0) +
        (if i = j then m.b.ssA.get a e * z (j * (d.nu + d.nx) + e) else 0))]
      · rw [Finset.sum_add_distrib, Finset.sum_ite_eq, if_pos (Finset.mem_range.2 ha)]
        congr 1
        split_ifs with h0
        · rfl
        · simp
      · intro e he
        rw [hxx j e (by omega) (by omega) ha (Finset.mem_range.1 he)]
        by_cases h0 : i = j
        · subst h0
          have h2 : ¬ i + 1 = i := by omega
          simp [h2]
        · have h2 : ¬ i + 1 = j + 1 := by omega
          by_cases h3 : i + 1 = j <;> by_cases h4 : a = e <;> simp [h0, h3, h4]
    rw [Finset.sum_congr rfl h1, Finset.sum_add_distrib, sum_block_ite (by omega) (fun j => - z (j * (d.nu + d.nx) + a)),
      sum_block_ite (by omega) (fun j => ∑ e ∈ range (d.nu + d.nx), m.b.ssA.get a e * z (j * (d.nu + d.nx) + e))]
  · have h1 : ∀ j ∈ range d.ph, ∑ e ∈ range d.nu,
        m.b.A.get ((i + 1) * (d.nu + d.nx) + a) (d.nS + (j * d.nu + e)) * z (d.nS + (j * d.nu + e)) =
          (if i = j then ∑ e ∈ range d.nu, m.b.ssB.get a e * z (d.nS + (j * d.nu + e)) else 0) := by
      intro j hj
      by_cases h0 : i = j
      · subst h0
        rw [if_pos rfl]
        refine Finset.sum_congr rfl fun e he => ?_
        rw [hxd i e (by omega) hi ha (Finset.mem_range.1 he), if_pos rfl]
      · rw [if_neg h0]
        refine Finset.sum_eq_zero fun e he => ?_
        rw [hxd j e (by omega) (Finset.mem_range.1 hj) ha (Finset.mem_range.1 he), if_neg (by omega), zero_mul]
    rw [Finset.sum_congr rfl h1, sum_block_ite hi (fun j => ∑ e ∈ range d.nu, m.b.ssB.get a e * z (d.nS + (j * d.nu + e)))]

/-- a row which is one unit vector -/
theorem row_unit (h : Solved d c x0 u0 st obj sol m m' r call) {ρ k : Nat} (hρ : ρ < d.nC) (hk : k < d.nV)
    (hrow : ∀ j, j < d.nV → m.b.A.get ρ j = if k = j then 1 else 0) (z : Nat → K) :
    Spec.rowValue call z ρ = z k := by
  unfold Spec.rowValue
  rw [h.call.n, Finset.sum_congr rfl (g := fun j => if k = j then z j else 0)]
  · rw [Finset.sum_ite_eq, if_pos (Finset.mem_range.2 hk)]
  · intro j hj
    rw [h.entryA hρ (Finset.mem_range.1 hj), hrow j (Finset.mem_range.1 hj)]
    split_ifs <;> simp

/-- state and held-input rows -/
theorem row_bound (h : Solved d c x0 u0 st obj sol m m' r call) {k : Nat} (hk : k < d.nS) (z : Nat → K) :
    Spec.rowValue call z (d.nS + k) = z k := by
  have hD := h.inv.builder.derived.Aineq
  have hdim := h.inv.builder.dims
  have hI : d.nI = d.nS + (d.nY + d.nD + (d.ph + 1)) := rfl
  refine h.row_unit (by simp only [Dims.nC]; omega) (by show k < d.nS + d.nD; omega) ?_ z
  intro j hj
  have := hD.sx k j (by rw [hdim]; exact hk) (by rw [hdim]; exact hj)
  simp only [hdim] at this
  exact this

/-- increment rows -/
theorem row_increment (h : Solved d c x0 u0 st obj sol m m' r call) {k : Nat} (hk : k < d.nD) (z : Nat → K) :
    Spec.rowValue call z (d.nS + (d.nS + d.nY + k)) = z (d.nS + k) := by
  have hD := h.inv.builder.derived.Aineq
  have hdim := h.inv.builder.dims
  have hI : d.nI = d.nS + (d.nY + d.nD + (d.ph + 1)) := rfl
  refine h.row_unit (by simp only [Dims.nC]; omega) (by show d.nS + k < d.nS + d.nD; omega) ?_ z
  intro j hj
  have := hD.dr k j (by rw [hdim]; exact hk) (by rw [hdim]; exact hj)
  simp only [hdim] at this
  exact this

/-- output rows -/
theorem row_output (h : Solved d c x0 u0 st obj sol m m' r call) {i a : Nat} (hi : i ≤ d.ph) (ha : a < d.ny) (z : Nat → K) :
    Spec.rowValue call z (d.nS + (d.nS + (i * d.ny + a))) =
      ∑ e ∈ range (d.nu + d.nx), m.b.ssC.get a e * z (i * (d.nu + d.nx) + e) := by
  have hD := h.inv.builder.derived.Aineq
  have hdim := h.inv.builder.dims
  have hI : d.nI = d.nS + (d.nY + d.nD + (d.ph + 1)) := rfl
  have hlt : i * d.ny + a < d.nY := block_lt ha (by omega)
  have hyx := hD.yx i a
  have hyd := hD.yd (i * d.ny + a)
  simp only [hdim] at hyx hyd
  rw [h.rowValue_split (by simp only [Dims.nC]; omega)]
  have h1 : ∀ j ∈ range (d.ph + 1), ∑ e ∈ range (d.nu + d.nx),
        m.b.A.get (d.nS + (d.nS + (i * d.ny + a))) (j * (d.nu + d.nx) + e) * z (j * (d.nu + d.nx) + e) =
          (if i = j then ∑ e ∈ range (d.nu + d.nx), m.b.ssC.get a e * z (j * (d.nu + d.nx) + e) else 0) := by
    intro j hj
    have hj' := Finset.mem_range.1 hj
    by_cases h0 : i = j
    · subst h0
      rw [if_pos rfl]
      refine Finset.sum_congr rfl fun e he => ?_
      rw [hyx i e hi hi ha (Finset.mem_range.1 he), if_pos rfl]
    · rw [if_neg h0]
      refine Finset.sum_eq_zero fun e he => ?_
      rw [hyx j e hi (by omega) ha (Finset.mem_range.1 he), if_neg h0, zero_mul]
  rw [Finset.sum_congr rfl h1, sum_block_ite (by omega) (fun j => ∑ e ∈ range (d.nu + d.nx), m.b.ssC.get a e * z (j * (d.nu + d.nx) + e))]
  refine (congrArg (_ + ·) (Finset.sum_eq_zero ?_)).trans (add_zero _)
  intro j hj
  refine Finset.sum_eq_zero fun e he => ?_
  rw [hyd _ hlt (block_lt (Finset.mem_range.1 he) (Finset.mem_range.1 hj)), zero_mul]

/-- scalar-constraint rows -/
theorem row_scalar (h : Solved d c x0 u0 st obj sol m m' r call) {i : Nat} (hi : i ≤ d.ph) (z : Nat → K) :
    Spec.rowValue call z (d.nS + (d.nS + d.nY + d.nD + i)) =
      ∑ e ∈ range (d.nu + d.nx), (if e < d.nx then c.sX e else c.sU (e - d.nx)) * z (i * (d.nu + d.nx) + e) := by
  have hD := h.inv.builder.derived.Aineq
  have hdim := h.inv.builder.dims
  have hI : d.nI = d.nS + (d.nY + d.nD + (d.ph + 1)) := rfl
  have hcx := hD.cx i
  have hcd := hD.cd i
  have hmul := h.inv.builder.repr.sMul i
  simp only [hdim] at hcx hcd hmul
  rw [h.rowValue_split (by simp only [Dims.nC]; omega)]
  have h1 : ∀ j ∈ range (d.ph + 1), ∑ e ∈ range (d.nu + d.nx),
        m.b.A.get (d.nS + (d.nS + d.nY + d.nD + i)) (j * (d.nu + d.nx) + e) * z (j * (d.nu + d.nx) + e) =
          (if i = j then ∑ e ∈ range (d.nu + d.nx),
            (if e < d.nx then c.sX e else c.sU (e - d.nx)) * z (j * (d.nu + d.nx) + e) else 0) := by
    intro j hj
    have hj' := Finset.mem_range.1 hj
    have hb : ∀ e ∈ range (d.nu + d.nx), j * (d.nu + d.nx) + e < d.nS := fun e he =>
      block_lt (Finset.mem_range.1 he) hj'
    by_cases h0 : i = j
    · subst h0
      rw [if_pos rfl]
      refine Finset.sum_congr rfl fun e he => ?_
      rw [hcx _ hi (hb e he), hmul i e hi hi (Finset.mem_range.1 he), if_pos rfl]
    · rw [if_neg h0]
      refine Finset.sum_eq_zero fun e he => ?_
      rw [hcx _ hi (hb e he), hmul j e hi (by omega) (Finset.mem_range.1 he), if_neg h0, zero_mul]
  rw [Finset.sum_congr rfl h1, sum_block_ite (by omega) (fun j => ∑ e ∈ range (d.nu + d.nx),
            (if e < d.nx then c.sX e else c.sU (e - d.nx)) * z (j * (d.nu + d.nx) + e))]
  refine (congrArg (_ + ·) (Finset.sum_eq_zero ?_)).trans (add_zero _)
  intro j hj
  refine Finset.sum_eq_zero fun e he => ?_
  rw [hcd _ hi (block_lt (Finset.mem_range.1 he) (Finset.mem_range.1 hj)), zero_mul]

/-- splitting the extended state -/
theorem sum_ext (d : Dims) (f : Nat → K) : ∑ e ∈ range (d.nu + d.nx), f e =
    ∑ e ∈ range d.nx, f e + ∑ e ∈ range d.nu, f (d.nx + e) := by
  rw [Nat.add_comm, Finset.sum_range_add]

end Solved
end Mpc
