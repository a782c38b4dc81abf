import Verif.Proofs.NlLast

/-
What the calls on the nonlinear controller return, and which boxes slices address.
-/
namespace Mpc
open Exec
set_option linter.unusedSectionVars false

variable {d : Dims} {K : Type} [Field K] [LinearOrder K] [IsStrictOrderedRing K]

/-- the slice setter with horizon `h` returned `o` -/
def SliceOut (h : Nat) (s : HorizonSlice) (o : NlOut K) : Prop :=
  ∃ b, o = .bool b ∧ if isSliceUnset s then b = true else isSliceValid h s = .ok b

/-- what a call returns -/
def OutOk (d : Dims) : NlCall d K → NlOut K → Prop
  | .setDiscretizationSamplingTime _, o => o = .bool true
  | .setOptimizerParameters _, o => o = .unit
  | .setInputScale _, o => o = .unit
  | .setStateScale _, o => o = .unit
  | .setObjectiveFunction _ _, o => o = .bool true
  | .setStateSpaceFunction _ _ acc, o => o = .bool acc
  | .setOutputFunction _, o => o = .bool true
  | .setIneqConFunction _ _ _, o => o = .bool true
  | .setEqConFunction _ _ _, o => o = .bool true
  | .setStateBounds _ _, o => o = .bool true
  | .setInputBounds _ _, o => o = .bool true
  | .setOutputBounds _ _, o => o = .threw
  | .setStateBoundsSlice _ _ s, o => SliceOut d.ph s o
  | .setInputBoundsSlice _ _ s, o => SliceOut d.ch s o
  | .setOutputBoundsSlice _ _ _, o => o = .threw
  | .optimize _ _ _ _ _, o => ∃ r call, o = .result r call

namespace NlMpc

theorem step_out {m m' : NlMpc d K} {c : NlCtl d K} (h : m.Agrees c) (hp : d.ph < 2 ^ 31) (hm : d.nZ ≤ 2 ^ 64)
    (op : NlCall d K) (hf : NlSpec.CallFits d op) {o : NlOut K} (hr : m.step op = .ok (m', o)) : OutOk d op o := by
  cases op with
  | setDiscretizationSamplingTime ts =>
    simp only [step] at hr
    obtain ⟨q, -, hr⟩ := bind_eq_ok.1 hr
    cases hr; rfl
  | setOptimizerParameters p =>
    simp only [step] at hr
    obtain ⟨q, -, hr⟩ := bind_eq_ok.1 hr
    cases hr; rfl
  | setInputScale v =>
    simp only [step] at hr
    obtain ⟨q, -, hr⟩ := bind_eq_ok.1 hr
    cases hr; rfl
  | setStateScale v =>
    simp only [step] at hr
    obtain ⟨q, -, hr⟩ := bind_eq_ok.1 hr
    cases hr; rfl
  | setObjectiveFunction f acc =>
    simp only [step] at hr
    obtain ⟨q, -, hr⟩ := bind_eq_ok.1 hr
    cases hr; rfl
  | setStateSpaceFunction F tol acc =>
    simp only [step] at hr
    obtain ⟨q, -, hr⟩ := bind_eq_ok.1 hr
    cases hr
    cases acc <;> rfl
  | setOutputFunction g =>
    simp only [step] at hr
    obtain ⟨q, -, hr⟩ := bind_eq_ok.1 hr
    cases hr; rfl
  | setIneqConFunction F tol acc =>
    simp only [step] at hr
    obtain ⟨q, -, hr⟩ := bind_eq_ok.1 hr
    cases hr; rfl
  | setEqConFunction F tol acc =>
    simp only [step] at hr
    obtain ⟨_, -, hr⟩ := bind_eq_ok.1 hr
    obtain ⟨q, -, hr⟩ := bind_eq_ok.1 hr
    cases hr; rfl
  | setStateBounds mn mx =>
    simp only [step] at hr
    exact (matrixBounds_agrees h (off := 0) (n := d.nx) hp (by unfold Dims.nZ at hm; omega) (fun _ _ _ _ => rfl) hr).1
  | setInputBounds mn mx =>
    simp only [step] at hr
    exact (matrixBounds_agrees h (off := d.ph * d.nx) (n := d.nu) (by have := h.pos; omega)
      (by have := Nat.mul_comm d.nu d.ch; unfold Dims.nZ at hm; omega) (fun _ _ _ _ => rfl) hr).1
  | setOutputBounds mn mx =>
    simp only [step] at hr
    cases hr; rfl
  | setStateBoundsSlice l u s =>
    simp only [step] at hr
    obtain ⟨b, h1, -, -, h2⟩ := sliceBounds_agrees h (fun _ => rfl) hr
    exact ⟨b, h1, h2⟩
  | setInputBoundsSlice l u s =>
    simp only [step] at hr
    obtain ⟨b, h1, -, -, h2⟩ := sliceBounds_agrees h (fun _ => rfl) hr
    exact ⟨b, h1, h2⟩
  | setOutputBoundsSlice l u s =>
    simp only [step] at hr
    cases hr; rfl
  | optimize x0 u0 cs oc junk =>
    simp only [step] at hr
    obtain ⟨r, call, rfl, -⟩ := optimize_ok h hp hf hr
    exact ⟨r, call, rfl⟩

/-- the calls of a history return what they return -/
theorem run_out (hch : 0 < d.ch) (hle : d.ch ≤ d.ph) (hp : d.ph < 2 ^ 31) (hm : d.nZ ≤ 2 ^ 64)
    {junk : Nat → K} {dyn : Bool} {ops : List (NlCall d K)} (hf : ∀ op ∈ ops, NlSpec.CallFits d op) {m : NlMpc d K}
    {outs : List (NlOut K)} (hr : run d junk dyn ops = .ok (m, outs)) : ∀ q ∈ ops.zip outs, OutOk d q.1 q.2 := by
  induction ops using List.reverseRecOn generalizing m outs with
  | nil => intro q hq; simp at hq
  | append_singleton ops op ih =>
    rw [run_snoc] at hr
    obtain ⟨q, hq, hr⟩ := bind_eq_ok.1 hr
    obtain ⟨r, hr', hr⟩ := bind_eq_ok.1 hr
    cases hr
    have h0 := ih (fun o ho => hf o (by simp [ho])) hq
    obtain ⟨h1, h2, h3⟩ := run_agrees hch hle hp hm (fun o ho => hf o (by simp [ho])) hq
    have h4 := step_out h1 hp hm op (hf op (by simp)) hr'
    intro p hp
    rw [List.zip_append h3.symm, List.mem_append] at hp
    rcases hp with hp | hp
    · exact h0 p hp
    · simp only [List.zip_cons_cons, List.zip_nil_right, List.mem_singleton] at hp
      subst hp
      exact h4

end NlMpc

/-- a component of the abstract state which is the last value set, for histories whose calls satisfy `P` -/
theorem after_last_if {α : Type} (π : NlCtl d K → α) (f : NlCall d K × NlOut K → Option α) (P : NlCall d K × NlOut K → Prop)
    (hs : ∀ c op (o : NlOut K), P (op, o) → π (NlCtl.step c o.refused op) = (f (op, o)).getD (π c))
    {ops : List (NlCall d K)} {outs : List (NlOut K)} (hl : outs.length = ops.length) (hP : ∀ q ∈ ops.zip outs, P q) :
    π (NlCtl.after d ops outs) = (NlSpec.last f (ops.zip outs)).getD (π (NlCtl.fresh d)) := by
  refine history_induction
    (P := fun ops outs => (∀ q ∈ ops.zip outs, P q) →
      π (NlCtl.after d ops outs) = (NlSpec.last f (ops.zip outs)).getD (π (NlCtl.fresh d))) (fun _ => rfl) ?_ hl hP
  intro ops outs op o hl ih hP
  rw [List.zip_append hl.symm, List.zip_cons_cons, List.zip_nil_right] at hP ⊢
  rw [NlMpc.after_snoc hl, hs _ _ _ (hP (op, o) (by simp)), ih (fun q hq => hP q (by simp [hq])), NlSpec.last_snoc,
    Option.getD_or']

/-! ### slices -/

theorem isSliceValid_true {h : Nat} {s : HorizonSlice} (hv : isSliceValid h s = .ok true) :
    s.start < s.stop ∧ s.start ≤ h ∧ s.stop ≤ h ∧ s.start + s.stop ≤ h := by
  unfold isSliceValid at hv
  split_ifs at hv with h1
  · cases hv
  · unfold addInt at hv
    obtain ⟨t, ht, hv⟩ := bind_eq_ok.1 hv
    obtain ⟨_, _, ht⟩ := bind_eq_ok.1 ht
    cases ht
    split_ifs at hv with h2
    · cases hv
    · omega

theorem isSliceUnset_iff {s : HorizonSlice} : isSliceUnset s = true ↔ s = HorizonSlice.all := by
  obtain ⟨a, b⟩ := s
  simp [isSliceUnset, HorizonSlice.all]

/-- accepted usable slices lie in the horizon -/
theorem SliceOut.inside {h : Nat} {s : HorizonSlice} (ho : SliceOut h s (.bool true : NlOut K)) (hu : NlSpec.SliceUsable s) :
    s = HorizonSlice.all ∨ (0 ≤ s.start ∧ s.start < s.stop ∧ s.stop ≤ h) := by
  obtain ⟨b, hb, ho⟩ := ho
  cases hb
  by_cases h1 : isSliceUnset s = true
  · exact .inl (isSliceUnset_iff.1 h1)
  · rw [if_neg h1] at ho
    have := isSliceValid_true ho
    rcases hu with hu | hu
    · exact .inl hu
    · exact .inr ⟨hu, this.1, this.2.2.1⟩

/-- a slice inside the horizon, as the loop of the optimizer sees it -/
theorem slice_range {h : Nat} (hh : h < 2 ^ 31) {s : HorizonSlice}
    (hs : s = HorizonSlice.all ∨ (0 ≤ s.start ∧ s.start < s.stop ∧ s.stop ≤ h)) :
    NlOpt.sliceStop h s ≤ h ∧ ∀ k, k < h → (NlSpec.InSlice s k ↔ NlOpt.sliceStart s ≤ k ∧ k < NlOpt.sliceStop h s) := by
  rcases hs with rfl | ⟨h1, h2, h3⟩
  · have e1 : NlOpt.sliceStart HorizonSlice.all = 0 := rfl
    have e2 : NlOpt.sliceStop h HorizonSlice.all = h := rfl
    rw [e1, e2]
    refine ⟨le_rfl, fun k hk => ?_⟩
    simp [NlSpec.InSlice, hk]
  · have e1 : (NlOpt.sliceStart s : Int) = s.start := by
      unfold NlOpt.sliceStart toSizeT
      rw [if_neg (by omega)]
      omega
    have e2 : (NlOpt.sliceStop h s : Int) = s.stop := by
      unfold NlOpt.sliceStop toSizeT
      rw [if_neg (by omega)]
      omega
    refine ⟨by omega, fun k hk => ?_⟩
    unfold NlSpec.InSlice
    rw [← e1, ← e2]
    constructor
    · rintro (rfl | h)
      · exact absurd h1 (by decide)
      · omega
    · intro h; right; omega

theorem addressed_block {off n start stop k a : Nat} (ha : a < n) :
    NlOpt.Addressed off n start stop (off + (k * n + a)) ↔ start ≤ k ∧ k < stop := by
  have e : off + (k * n + a) - off = k * n + a := by omega
  unfold NlOpt.Addressed
  rw [e, block_div _ ha]
  constructor
  · rintro ⟨-, -, h⟩; exact h
  · intro h; exact ⟨by omega, by omega, h⟩

/-- entries written by a slice setter -/
theorem written_block {off n h : Nat} (hh : h < 2 ^ 31) (hw : off + h * n ≤ 2 ^ 64) {s : HorizonSlice}
    (hs : s = HorizonSlice.all ∨ (0 ≤ s.start ∧ s.start < s.stop ∧ s.stop ≤ h)) (v old : Nat → Ext K) {k a : Nat}
    (hk : k < h) (ha : a < n) :
    NlOpt.written off n (NlOpt.sliceStart s) (NlOpt.sliceStop h s) v old (off + (k * n + a))
      = if NlSpec.InSlice s k then v a else old (off + (k * n + a)) := by
  obtain ⟨h1, h2⟩ := slice_range hh hs
  have : NlOpt.sliceStop h s * n ≤ h * n := Nat.mul_le_mul_right _ h1
  rw [NlOpt.written_eq (.inr (by omega))]
  have e : off + (k * n + a) - off = k * n + a := by omega
  by_cases hi : NlSpec.InSlice s k
  · rw [if_pos hi, if_pos ((addressed_block ha).2 ((h2 k hk).1 hi)), e, block_mod _ ha]
  · rw [if_neg hi, if_neg (fun hc => hi ((h2 k hk).2 ((addressed_block ha).1 hc)))]

/-- entries a slice setter leaves alone -/
theorem written_outside {off n h : Nat} (hh : h < 2 ^ 31) (hw : off + h * n ≤ 2 ^ 64) {s : HorizonSlice}
    (hs : s = HorizonSlice.all ∨ (0 ≤ s.start ∧ s.start < s.stop ∧ s.stop ≤ h)) (v old : Nat → Ext K) {p : Nat}
    (hp : p < off ∨ off + h * n ≤ p) :
    NlOpt.written off n (NlOpt.sliceStart s) (NlOpt.sliceStop h s) v old p = old p := by
  obtain ⟨h1, h2⟩ := slice_range hh hs
  have h3 : NlOpt.sliceStop h s * n ≤ h * n := Nat.mul_le_mul_right _ h1
  rw [NlOpt.written_eq (.inr (by omega)), if_neg]
  intro hc
  obtain ⟨i, j, -, g2, g3, rfl⟩ := NlOpt.addressed_iff.1 hc
  have := block_lt (n := NlOpt.sliceStop h s) g3 g2
  omega

theorem writeMat_block {off n h k a : Nat} (v : Nat → Nat → Ext K) (old : Nat → Ext K) (hk : k < h) (ha : a < n) :
    NlCtl.writeMat off n h v old (off + (k * n + a)) = v a k := by
  unfold NlCtl.writeMat
  have e : off + (k * n + a) - off = k * n + a := by omega
  rw [if_pos ((addressed_block ha).2 ⟨Nat.zero_le _, hk⟩), e, block_mod _ ha, block_div _ ha]

theorem writeMat_outside {off n h p : Nat} (v : Nat → Nat → Ext K) (old : Nat → Ext K) (hp : p < off ∨ off + h * n ≤ p) :
    NlCtl.writeMat off n h v old p = old p := by
  unfold NlCtl.writeMat
  rw [if_neg]
  intro hc
  obtain ⟨i, j, -, g2, g3, rfl⟩ := NlOpt.addressed_iff.1 hc
  have := block_lt (n := h) g3 g2
  omega

end Mpc
