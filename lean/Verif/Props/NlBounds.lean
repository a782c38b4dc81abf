import Verif.Proofs.NlOutputs
import Verif.Props.NlAsked

/-
C44, C45, C46 and the nonlinear parts of C16 and C50: boxes, soft constraints, limits, slices, unsupported setters.
-/
namespace Mpc.Props
open Mpc Exec
set_option linter.unusedSectionVars false

section
variable {d : Dims} {K : Type} [Field K] [LinearOrder K] [IsStrictOrderedRing K]
variable {dyn : Bool} {ops : List (NlCall d K)} {outs : List (NlOut K)} {m m' : NlMpc d K} {x0 u0 : Vec K}
  {cs : List (NlCallback K)} {oc : NlOutcome K} {r : LResult K} {call : NlSolverCall K}

theorem NlRan.outOk (h : NlRan d dyn ops outs m) : ∀ q ∈ ops.zip outs, OutOk d q.1 q.2 := by
  obtain ⟨junk, hr⟩ := h.ran
  exact NlMpc.run_out h.hor.ch_pos h.hor.ch_le h.hor.ph_int h.mem h.fits hr

theorem NlRan.usable (_ : NlRan d dyn ops outs m) (hu : ∀ op ∈ ops, NlSpec.UsableCall op) :
    ∀ q ∈ ops.zip outs, NlSpec.UsableCall q.1 := fun q hq => hu _ (List.of_mem_zip hq).1

/-! ### C44 -/

/-- C44 as claimed: the box of every state and input decision variable is the one of the last accepted setter which
addresses its step, and unbounded without one. -/
def C44Claim (K : Type) [Field K] [LinearOrder K] [IsStrictOrderedRing K] : Prop :=
  ∀ (d : Dims) dyn (ops : List (NlCall d K)) outs x0 u0 cs oc m m' r call,
    NlAsked d dyn ops outs x0 u0 cs oc m m' r call →
    (∀ k a, k < d.ph → a < d.nx → (call.lb.get (NlSpec.stateIx d k a), call.ub.get (NlSpec.stateIx d k a))
      = (NlSpec.last (NlSpec.stateBox k a) (ops.zip outs)).getD (.negInf, .posInf)) ∧
    (∀ j b, j < d.ch → b < d.nu → (call.lb.get (NlSpec.inputIx d j b), call.ub.get (NlSpec.inputIx d j b))
      = (NlSpec.last (NlSpec.inputBox j b) (ops.zip outs)).getD (.negInf, .posInf))

theorem slackIx_bounds (d : Dims) : d.ph * d.nx + d.ch * d.nu = NlSpec.slackIx d := rfl

theorem state_box_step (hp : d.ph < 2 ^ 31) (hle : d.ch ≤ d.ph) (hm : d.nZ ≤ 2 ^ 64) {k a : Nat} (hk : k < d.ph) (ha : a < d.nx) (c : NlCtl d K)
    (op : NlCall d K) (o : NlOut K) (ho : OutOk d op o) (hu : NlSpec.UsableCall op) :
    ((c.step o.refused op).lo (NlSpec.stateIx d k a), (c.step o.refused op).up (NlSpec.stateIx d k a))
      = (NlSpec.stateBox k a (op, o)).getD (c.lo (NlSpec.stateIx d k a), c.up (NlSpec.stateIx d k a)) := by
  have hs := stateIx_lt (d := d) hk ha
  have hblk := block_lt (n := d.ph) ha hk
  have hcomm := Nat.mul_comm d.nu d.ch
  unfold Dims.nZ at hs hm
  have hix : NlSpec.stateIx d k a = 0 + (k * d.nx + a) := by unfold NlSpec.stateIx; omega
  cases op with
  | setOptimizerParameters p =>
    cases p with
    | other => rfl
    | nonlinear p =>
      have hne : ¬ (NlSpec.stateIx d k a = NlSpec.slackIx d ∧ p.hard_constraints = true) := by
        rintro ⟨h, -⟩; rw [← slackIx_bounds] at h; omega
      simp only [NlCtl.step, if_neg hne]
      rfl
  | optimize x0 u0 cs oc j => rcases oc with _ | ⟨z, v, k, _ | _⟩ <;> rfl
  | setStateBounds mn mx =>
    cases ho
    simp only [NlCtl.step, NlSpec.stateBox, Option.getD_some]
    rw [hix, writeMat_block _ _ hk ha, writeMat_block _ _ hk ha]
  | setInputBounds mn mx =>
    cases ho
    simp only [NlCtl.step, NlSpec.stateBox, Option.getD_none]
    rw [writeMat_outside _ _ (.inl (by omega)), writeMat_outside _ _ (.inl (by omega))]
  | setStateBoundsSlice l u s =>
    obtain ⟨b, rfl, hb⟩ := id ho
    cases b
    · rfl
    · have hin := SliceOut.inside ho hu
      simp only [NlCtl.step, NlSpec.stateBox, NlOut.refused, Bool.false_eq_true, if_false]
      rw [hix, written_block hp (by omega) hin _ _ hk ha, written_block hp (by omega) hin _ _ hk ha]
      split_ifs <;> rfl
  | setInputBoundsSlice l u s =>
    obtain ⟨b, rfl, hb⟩ := id ho
    cases b
    · rfl
    · have hin := SliceOut.inside ho hu
      simp only [NlCtl.step, NlSpec.stateBox, NlOut.refused, Bool.false_eq_true, if_false, Option.getD_none]
      rw [written_outside (by omega) (by omega) hin _ _ (.inl (by omega)),
        written_outside (by omega) (by omega) hin _ _ (.inl (by omega))]
  | _ => rfl

theorem input_box_step (hp : d.ph < 2 ^ 31) (hle : d.ch ≤ d.ph) (hm : d.nZ ≤ 2 ^ 64) {j b : Nat} (hj : j < d.ch) (hb : b < d.nu)
    (c : NlCtl d K) (op : NlCall d K) (o : NlOut K) (ho : OutOk d op o) (hu : NlSpec.UsableCall op) :
    ((c.step o.refused op).lo (NlSpec.inputIx d j b), (c.step o.refused op).up (NlSpec.inputIx d j b))
      = (NlSpec.inputBox j b (op, o)).getD (c.lo (NlSpec.inputIx d j b), c.up (NlSpec.inputIx d j b)) := by
  have hblk := block_lt (n := d.ch) hb hj
  have hcomm := Nat.mul_comm d.nu d.ch
  unfold Dims.nZ at hm
  have hix : NlSpec.inputIx d j b = d.ph * d.nx + (j * d.nu + b) := by unfold NlSpec.inputIx; omega
  cases op with
  | setOptimizerParameters p =>
    cases p with
    | other => rfl
    | nonlinear p =>
      have hne : ¬ (NlSpec.inputIx d j b = NlSpec.slackIx d ∧ p.hard_constraints = true) := by
        rintro ⟨h, -⟩; rw [← slackIx_bounds] at h; omega
      simp only [NlCtl.step, if_neg hne]
      rfl
  | optimize x0 u0 cs oc j => rcases oc with _ | ⟨z, v, k, _ | _⟩ <;> rfl
  | setStateBounds mn mx =>
    cases ho
    simp only [NlCtl.step, NlSpec.inputBox, Option.getD_none]
    rw [writeMat_outside _ _ (.inr (by omega)), writeMat_outside _ _ (.inr (by omega))]
  | setInputBounds mn mx =>
    cases ho
    simp only [NlCtl.step, NlSpec.inputBox, Option.getD_some]
    rw [hix, writeMat_block _ _ hj hb, writeMat_block _ _ hj hb]
  | setStateBoundsSlice l u s =>
    obtain ⟨b', rfl, hb'⟩ := id ho
    cases b'
    · rfl
    · have hin := SliceOut.inside ho hu
      simp only [NlCtl.step, NlSpec.inputBox, NlOut.refused, Bool.false_eq_true, if_false, Option.getD_none]
      rw [written_outside (by omega) (by omega) hin _ _ (.inr (by omega)),
        written_outside (by omega) (by omega) hin _ _ (.inr (by omega))]
  | setInputBoundsSlice l u s =>
    obtain ⟨b', rfl, hb'⟩ := id ho
    cases b'
    · rfl
    · have hin := SliceOut.inside ho hu
      simp only [NlCtl.step, NlSpec.inputBox, NlOut.refused, Bool.false_eq_true, if_false]
      rw [hix, written_block (by omega) (by omega) hin _ _ hj hb, written_block (by omega) (by omega) hin _ _ hj hb]
      split_ifs <;> rfl
  | _ => rfl

theorem slack_box_step (hp : d.ph < 2 ^ 31) (hle : d.ch ≤ d.ph) (hm : d.nZ ≤ 2 ^ 64)
    (c : NlCtl d K) (op : NlCall d K) (o : NlOut K) (ho : OutOk d op o) (hu : NlSpec.UsableCall op)
    (hc : (c.lo (NlSpec.slackIx d), c.up (NlSpec.slackIx d)) = (.fin 0, .fin 0)) :
    ((c.step o.refused op).lo (NlSpec.slackIx d), (c.step o.refused op).up (NlSpec.slackIx d)) = (.fin 0, .fin 0) := by
  have hcomm := Nat.mul_comm d.nu d.ch
  unfold Dims.nZ at hm
  have hix := slackIx_bounds d
  cases op with
  | setOptimizerParameters p =>
    cases p with
    | other => exact hc
    | nonlinear p =>
      simp only [NlCtl.step]
      split_ifs
      · rfl
      · exact hc
  | optimize x0 u0 cs oc j => rcases oc with _ | ⟨z, v, k, _ | _⟩ <;> exact hc
  | setStateBounds mn mx =>
    simp only [NlCtl.step]
    rw [writeMat_outside _ _ (.inr (by omega)), writeMat_outside _ _ (.inr (by omega))]
    exact hc
  | setInputBounds mn mx =>
    simp only [NlCtl.step]
    rw [writeMat_outside _ _ (.inr (by omega)), writeMat_outside _ _ (.inr (by omega))]
    exact hc
  | setStateBoundsSlice l u s =>
    obtain ⟨b', rfl, hb'⟩ := id ho
    cases b'
    · exact hc
    · have hin := SliceOut.inside ho hu
      simp only [NlCtl.step, NlOut.refused, Bool.false_eq_true, if_false]
      rw [written_outside (by omega) (by omega) hin _ _ (.inr (by omega)),
        written_outside (by omega) (by omega) hin _ _ (.inr (by omega))]
      exact hc
  | setInputBoundsSlice l u s =>
    obtain ⟨b', rfl, hb'⟩ := id ho
    cases b'
    · exact hc
    · have hin := SliceOut.inside ho hu
      simp only [NlCtl.step, NlOut.refused, Bool.false_eq_true, if_false]
      rw [written_outside (by omega) (by omega) hin _ _ (.inr (by omega)),
        written_outside (by omega) (by omega) hin _ _ (.inr (by omega))]
      exact hc
  | _ => exact hc

/-- C44, partial: the claim holds for every history in which no slice has a negative start (other than `{-1,-1}`, the whole
horizon). Missing: the negative slices, which the code accepts (`c44_negative_slice_violated`). -/
theorem c44_boxes_partial (h : NlAsked d dyn ops outs x0 u0 cs oc m m' r call) (hu : ∀ op ∈ ops, NlSpec.UsableCall op) :
    call.lb.size = d.ph * d.nx + d.nu * d.ch + 1 ∧ call.ub.size = d.ph * d.nx + d.nu * d.ch + 1 ∧
    (∀ k a, k < d.ph → a < d.nx → (call.lb.get (NlSpec.stateIx d k a), call.ub.get (NlSpec.stateIx d k a))
      = (NlSpec.last (NlSpec.stateBox k a) (ops.zip outs)).getD (.negInf, .posInf)) ∧
    (∀ j b, j < d.ch → b < d.nu → (call.lb.get (NlSpec.inputIx d j b), call.ub.get (NlSpec.inputIx d j b))
      = (NlSpec.last (NlSpec.inputBox j b) (ops.zip outs)).getD (.negInf, .posInf)) := by
  obtain ⟨-, -, hg, -⟩ := h.known
  have hl := h.toNlRan.len
  have hP : ∀ q ∈ ops.zip outs, OutOk d q.1 q.2 ∧ NlSpec.UsableCall q.1 :=
    fun q hq => ⟨h.toNlRan.outOk q hq, h.toNlRan.usable hu q hq⟩
  have hblk := fun {k a : Nat} (hk : k < d.ph) (ha : a < d.nx) => block_lt (n := d.ph) ha hk
  refine ⟨hg.lbs, hg.ubs, ?_, ?_⟩
  · intro k a hk ha
    rw [hg.lb, hg.ub]
    refine (after_last_if (fun c => (c.lo (NlSpec.stateIx d k a), c.up (NlSpec.stateIx d k a))) (NlSpec.stateBox k a) _
      (fun c op o hq => state_box_step h.hor.ph_int h.hor.ch_le h.mem hk ha c op o hq.1 hq.2) hl hP).trans ?_
    have hne : NlSpec.stateIx d k a ≠ NlSpec.slackIx d := by
      have := hblk hk ha
      unfold NlSpec.stateIx NlSpec.slackIx
      omega
    simp only [NlCtl.fresh, if_neg hne]
  · intro j b hj hb
    rw [hg.lb, hg.ub]
    refine (after_last_if (fun c => (c.lo (NlSpec.inputIx d j b), c.up (NlSpec.inputIx d j b))) (NlSpec.inputBox j b) _
      (fun c op o hq => input_box_step h.hor.ph_int h.hor.ch_le h.mem hj hb c op o hq.1 hq.2) hl hP).trans ?_
    have hne : NlSpec.inputIx d j b ≠ NlSpec.slackIx d := by
      have := block_lt (n := d.ch) hb hj
      unfold NlSpec.inputIx NlSpec.slackIx
      omega
    simp only [NlCtl.fresh, if_neg hne]

/-- C44, partial (same histories): no bound setter ever moves the bounds of the slack variable. -/
theorem c44_slack_partial (h : NlAsked d dyn ops outs x0 u0 cs oc m m' r call) (hu : ∀ op ∈ ops, NlSpec.UsableCall op) :
    call.lb.get (NlSpec.slackIx d) = .fin 0 ∧ call.ub.get (NlSpec.slackIx d) = .fin 0 := by
  obtain ⟨-, -, hg, -⟩ := h.known
  have hP : ∀ q ∈ ops.zip outs, OutOk d q.1 q.2 ∧ NlSpec.UsableCall q.1 :=
    fun q hq => ⟨h.toNlRan.outOk q hq, h.toNlRan.usable hu q hq⟩
  rw [hg.lb, hg.ub]
  have := history_induction (P := fun ops outs => (∀ q ∈ ops.zip outs, OutOk d q.1 q.2 ∧ NlSpec.UsableCall q.1) →
    ((NlCtl.after d ops outs).lo (NlSpec.slackIx d), (NlCtl.after d ops outs).up (NlSpec.slackIx d))
      = ((.fin 0, .fin 0) : Ext K × Ext K)) (fun _ => by
        show (((NlCtl.fresh d : NlCtl d K)).lo _, ((NlCtl.fresh d : NlCtl d K)).up _) = _
        simp [NlCtl.fresh]) (by
      intro ops outs op o hl ih hP
      rw [List.zip_append hl.symm, List.zip_cons_cons, List.zip_nil_right] at hP
      rw [NlMpc.after_snoc hl]
      have hq := hP (op, o) (by simp)
      exact slack_box_step h.hor.ph_int h.hor.ch_le h.mem _ op o hq.1 hq.2 (ih (fun q hq => hP q (by simp [hq]))))
    h.toNlRan.len hP
  exact ⟨congrArg Prod.fst this, congrArg Prod.snd this⟩

end

/-- The slice `{-3,-2}` of the input bounds is accepted and overwrites the box of a state. -/
theorem negative_slice_accepted : ∃ m, NlRan (K := ℚ) dN false [.setInputBoundsSlice (bvec 1 1) (bvec 1 2) ⟨-3, -2⟩]
    [.bool true] m := by
  obtain ⟨outs, m, h⟩ := nlRan_exists (K := ℚ) (d := dN) (dyn := false) (ops := []) dN_ok (by decide) (by decide)
    (fun _ => 0) (by simp) (by rintro p op q e; simp at e)
  obtain rfl : outs = [] := List.length_eq_zero_iff.1 h.len
  have ha := h.agrees.1
  have hlb : m.o.lb.size = 9 := ha.lbs
  have hub : m.o.ub.size = 9 := ha.ubs
  have hv : isSliceValid dN.ch ⟨-3, -2⟩ = .ok true := by
    unfold isSliceValid addInt
    rw [if_neg (by decide), require_ok (by decide)]
    rfl
  have hs : ∃ m', m.step (.setInputBoundsSlice (bvec 1 1) (bvec 1 2) ⟨-3, -2⟩) = .ok (m', .bool true) := by
    simp only [NlMpc.step]
    unfold NlMpc.sliceBounds
    rw [if_neg (by decide), hv, ok_bind]
    dsimp only
    rw [if_pos rfl]
    unfold NlOpt.setInputBounds NlOpt.fillBounds
    rw [show NlOpt.sliceStart ⟨-3, -2⟩ = 2 ^ 64 - 3 from by decide,
      show NlOpt.sliceStop dN.ch ⟨-3, -2⟩ - (2 ^ 64 - 3) = 1 from by decide]
    simp only [forFrom, forRange]
    rw [show NlOpt.boundIx (dN.ph * dN.nx) dN.nu (2 ^ 64 - 3) 0 = 3 from by decide,
      Vec.at_ok (v := bvec 1 1) (by decide), ok_bind, Vec.at_ok (v := bvec 1 2) (by decide), ok_bind,
      Vec.set_ok (by omega), ok_bind, Vec.set_ok (by omega), ok_bind]
    exact ⟨_, rfl⟩
  obtain ⟨m', hs⟩ := hs
  exact ⟨m', h.snoc ⟨rfl, rfl, by simp [HorizonSlice.Int32]⟩ hs⟩

/-- C44 is violated: an accepted call of the *input* bounds setter with slice `{-3,-2}` bounds a *state*. -/
theorem c44_negative_slice_violated : ¬ C44Claim ℚ := by
  intro hc
  obtain ⟨m, h⟩ := negative_slice_accepted
  obtain ⟨m', r, call, h'⟩ := h.asks (x0 := nvec 2 fun _ => 0) (u0 := nvec 1 fun _ => 0) (oc := .threw) rfl rfl
    (by simp) (by decide)
  have h1 := (hc _ _ _ _ _ _ _ _ _ _ _ _ h').1 1 1 (by decide) (by decide)
  obtain ⟨-, -, hg, -⟩ := h'.known
  rw [hg.lb, hg.ub] at h1
  have e : (NlCtl.after dN [.setInputBoundsSlice (bvec 1 1) (bvec 1 2) ⟨-3, -2⟩] [.bool true]).lo (NlSpec.stateIx dN 1 1)
      = Ext.fin (1 : ℚ) := by
    simp only [NlCtl.after, List.zip_cons_cons, List.zip_nil_right, List.foldl_cons, List.foldl_nil, NlCtl.step,
      NlOut.refused, Bool.false_eq_true, if_false, NlOpt.written]
    rw [show NlOpt.sliceStart ⟨-3, -2⟩ = 2 ^ 64 - 3 from by decide,
      show NlOpt.sliceStop dN.ch ⟨-3, -2⟩ - (2 ^ 64 - 3) = 1 from by decide]
    simp only [List.range'_one, List.foldl_cons, List.foldl_nil]
    rw [if_pos (by decide)]
    rfl
  rw [e] at h1
  simp [NlSpec.last, NlSpec.stateBox] at h1

/-- non-vacuity: the sample history has usable slices only -/
example : (∀ op ∈ opsN, NlSpec.UsableCall op) ∧ ∃ outs m m' r call, NlAsked dN false opsN outs (nvec 2 fun _ => 1)
    (nvec 1 fun _ => 2) [.con 2 (zN 5) true (fun _ => 0)] .threw m m' r call := by
  refine ⟨?_, sampleN_asked 1 2 _ (by simp)⟩
  intro op h
  unfold opsN at h
  simp only [List.mem_cons, List.not_mem_nil, or_false] at h
  rcases h with rfl | rfl | rfl | rfl | rfl | rfl | rfl | rfl | rfl | rfl | rfl | rfl
  all_goals first | trivial | exact .inr (by decide)

end Mpc.Props
