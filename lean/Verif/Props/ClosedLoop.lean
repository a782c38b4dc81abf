import Verif.Spec.ClosedLoop
import Verif.Proofs.LinSnoc
import Verif.Props.LinearSymmetry

/-
C78, C79: the linear controller in closed loop with a plant that behaves like its model, over any number of steps.
-/
namespace Mpc.Props
open Mpc.Spec Exec
set_option linter.unusedSectionVars false

variable {K : Type} [Field K] [DecidableEq K] [LinearOrder K] [IsStrictOrderedRing K]
variable {d : Dims} {ops : List (LOp K)} {outs : List (LOut K)} {x u : Nat → Vec K} {oc : Nat → OsqpOutcome K}
  {r : Nat → LResult K} {call : Nat → OsqpCall K} {seq : Nat → Mat K × Mat K × Mat K} {N : Nat}

theorem _root_.Mpc.Spec.ClosedLoop.config (h : ClosedLoop d ops outs x u oc r call seq N) :
    ∀ t, t ≤ N → configOf (loopOps ops x u oc t) (loopOuts outs r call t) = configOf ops outs
  | 0, _ => rfl
  | t + 1, ht => by
    obtain ⟨m, m', ha, -⟩ := h.asked t ht
    show configOf (loopOps ops x u oc t ++ _) (loopOuts outs r call t ++ _) = _
    rw [configOf_snoc (configured_length ha.toConfigured)]
    exact h.config t (by omega)

/-- C78. In closed loop with exact answers, the state the plant reaches next is the second row of the reported sequence,
and it respects the limits configured for the first step; this holds in every step. -/
theorem c78_prediction (h : ClosedLoop d ops outs x u oc r call seq N) (hms : (configOf ops outs).modelSet = true)
    (he : AllExact oc call N) {t : Nat} (ht : t < N) :
    (∀ a, a < d.nx → (seq t).1.get 0 a = (x t).get a) ∧
    (∀ a, a < d.nx → (x (t + 1)).get a = (seq t).1.get 1 a) ∧
    (∀ a, a < d.nx → within ((configOf ops outs).xMin 0 a) ((configOf ops outs).xMax 0 a) ((x (t + 1)).get a)) ∧
    (∀ a, a < d.ny → within ((configOf ops outs).yMin 0 a) ((configOf ops outs).yMax 0 a)
      (outputOf d (configOf ops outs) (x (t + 1)).get ((configOf ops outs).dist 0) a)) ∧
    (∀ a, a < d.nu → within ((configOf ops outs).uMin (min 1 (d.ph - 1)) a) ((configOf ops outs).uMax (min 1 (d.ph - 1)) a)
      ((u (t + 1)).get a)) := by
  obtain ⟨m, m', ha, hs⟩ := h.asked t ht
  obtain ⟨st, obj, z, y, e, hz⟩ := he t ht
  rw [e] at ha
  have hph := ha.valid.ph_pos
  have hc := h.config t ht.le
  obtain ⟨tr, hb⟩ := (c63_coded_partial ha (by rw [hc]; exact hms) z).1 hz
  rw [hc] at tr hb
  obtain ⟨-, -, -, hS, hU, -, -, -, hcmd⟩ := c18_sequence ha
  rw [hs] at hS hU hcmd
  have e0 : ∀ a, a < d.nx → (seq t).1.get 0 a = (x t).get a := fun a ha => by rw [hS 0 a (by omega) ha]; exact tr.state0 a ha
  have ein : ∀ a, a < d.nu → inputAt d z 0 a = (r t).cmd.get a := fun a ha => by rw [hcmd a ha, hU 0 a hph ha]
  have e1 : ∀ a, a < d.nx → (x (t + 1)).get a = predict d (configOf ops outs) (x t).get (inputAt d z) 1 a := fun a ha => by
    rw [h.plant t a ht ha]
    show _ = dot d.nx _ (x t).get + dot d.nu _ (inputAt d z 0) + _
    rw [dot_congr ein]
  have e2 : ∀ a, a < d.nx → (x (t + 1)).get a = (seq t).1.get 1 a := fun a ha => by
    rw [e1 a ha, hS 1 a (by omega) ha, tr.predict 1 a (by omega) ha]
  refine ⟨e0, e2, fun a ha => ?_, fun a ha => ?_, fun a ha => ?_⟩
  · rw [e1 a ha]; exact hb.1.states 1 a (by omega) ha
  · rw [outputOf_congr e1]; exact hb.1.outputs 1 a (by omega) ha
  · rw [h.applied t a ht ha, ← ein a ha]; exact hb.1.held 1 a (by omega) ha

theorem rest_start {c : LinConfig K} {a b a' b' : Nat → K} (ha : ∀ e, e < d.nx → a' e = a e) (hb : ∀ e, e < d.nu → b' e = b e)
    (h : AtRest d c a b) : AtRest d c a' b' := by
  have ey : ∀ dist e, outputOf d c a' dist e = outputOf d c a dist e := fun dist e => outputOf_congr ha e
  refine ⟨fun k e hk he => ?_, fun k e hk he => ?_, fun k e hk he => ?_, fun k e hk he => ?_, fun k hk => ?_, fun k e hk he => ?_,
    fun k e hk he => ?_, h.duRef⟩
  · rw [dot_congr ha, dot_congr hb, ha e he]; exact h.rest k e hk he
  · rw [ha e he]; exact h.states k e hk he
  · rw [hb e he]; exact h.inputs k e hk he
  · rw [ey]; exact h.outputs k e hk he
  · rw [dot_congr ha, dot_congr hb]; exact h.scalar k hk
  · rw [ey]; exact h.yRef k e hk he
  · rw [hb e he]; exact h.uRef k e hk he

/-- C79. A closed loop which starts at rest at its target stays there: in every step the state is the initial one and the
command the initial one. -/
theorem c79_rests_forever (h : ClosedLoop d ops outs x u oc r call seq N) (hms : (configOf ops outs).modelSet = true)
    (he : AllExact oc call N) (hw : WeightsNonneg d (configOf ops outs)) (hc : CommandsWeighted d (configOf ops outs))
    (hr : AtRest d (configOf ops outs) (x 0).get (u 0).get) :
    ∀ t, t ≤ N → (∀ a, a < d.nx → (x t).get a = (x 0).get a) ∧ (∀ a, a < d.nu → (u t).get a = (u 0).get a)
  | 0, _ => ⟨fun _ _ => rfl, fun _ _ => rfl⟩
  | t + 1, ht => by
    obtain ⟨ex, eu⟩ := c79_rests_forever h hms he hw hc hr t (by omega)
    obtain ⟨m, m', ha, hs⟩ := h.asked t ht
    obtain ⟨st, obj, z, y, e, hz⟩ := he t ht
    rw [e] at ha
    have hcf := h.config t (by omega)
    have hph := ha.valid.ph_pos
    obtain ⟨h1, h2, -⟩ := c70_keeps_rest ha (by rw [hcf]; exact hms) (by rw [hcf]; exact hw) (by rw [hcf]; exact hc)
      (by rw [hcf]; exact rest_start ex eu hr) hz
    rw [hs] at h2
    obtain ⟨-, h3, -⟩ := c78_prediction h hms he ht
    refine ⟨fun a ha => ?_, fun a ha => ?_⟩
    · rw [h3 a ha, h2 1 a (by omega) ha]; exact ex a ha
    · rw [h.applied t a ht ha, h1 a ha]; exact eu a ha

theorem loop_congr {r' : Nat → LResult K} {call' : Nat → OsqpCall K} : ∀ {t : Nat}, (∀ i, i < t → r' i = r i ∧ call' i = call i) →
    loopOuts outs r' call' t = loopOuts outs r call t
  | 0, _ => rfl
  | t + 1, h => by
    show loopOuts outs r' call' t ++ _ = loopOuts outs r call t ++ _
    rw [loop_congr fun i hi => h i (by omega), (h t (by omega)).1, (h t (by omega)).2]

/-- Non-vacuity of C78 and C79: the integrator at its target, for any number of steps. -/
example (N : Nat) : ∃ oc r call seq, ClosedLoop (dims1 3 2) restOps restOuts (fun _ => cvec 1 3) (fun _ => cvec 1 0) oc r call seq N ∧
    AllExact oc call N ∧ AtRest (dims1 3 2) (configOf restOps restOuts) (cvec 1 3).get (cvec 1 0).get := by
  let x : Nat → Vec ℚ := fun _ => cvec 1 3
  let u : Nat → Vec ℚ := fun _ => cvec 1 0
  let oc : Nat → OsqpOutcome ℚ := fun _ => .answered 1 0 (some (lift (dims1 3 2) (configOf restOps restOuts) (cvec 1 3).get (cvec 1 0).get
    fun _ => (cvec 1 0).get, fun _ => 0))
  have hd := dims1_valid (ph := 3) (ch := 2) (by decide) (by decide) (by decide) (by decide)
  have run : ∀ N, ∃ (r : Nat → LResult ℚ) (call : Nat → OsqpCall ℚ) (seq : Nat → Mat ℚ × Mat ℚ × Mat ℚ) (m : LMpc ℚ),
      ClosedLoop (dims1 3 2) restOps restOuts x u oc r call seq N ∧ AllExact oc call N ∧
      Configured (dims1 3 2) (loopOps restOps x u oc N) (loopOuts restOuts r call N) m ∧ LMpc.WarmSafe (dims1 3 2) m := by
    intro N
    induction N with
    | zero =>
      obtain ⟨m, hm, hw⟩ := configured_of_accepts hd (by decide) (by decide)
        (ops := restOps) (by accepts_tac [restOps])
      obtain ⟨_, _, r, call, -⟩ := rest_asked 1 0 none
      exact ⟨fun _ => r, fun _ => call, fun _ => m.getOptimalSequence, m,
        ⟨fun t ht => by omega, fun t a ht => by omega, fun t a ht => by omega⟩, fun t ht => by omega, hm, hw⟩
    | succ N ih =>
      obtain ⟨r, call, seq, m, hl, hx, hm, hw⟩ := ih
      obtain ⟨⟨m', out⟩, hstep⟩ := LMpc.step_total (op := .optimize (x N) (u N) (oc N)) hd (by decide) (by decide)
        (configured_inv hm) hw ⟨rfl, rfl⟩ (fun s hs => by cases hs) (by simp [LMpc.Safe, oc])
      obtain ⟨r', call', rfl⟩ : ∃ r' call', out = .result r' call' := by
        have h2 := hstep
        simp only [LMpc.step, bind_eq_ok] at h2
        obtain ⟨q, _, h3⟩ := h2
        cases h3
        exact ⟨_, _, rfl⟩
      have hask : Asked (dims1 3 2) (loopOps restOps x u oc N) (loopOuts restOuts r call N) (x N) (u N) (oc N) m m' r' call' :=
        ⟨hm, rfl, rfl, hstep⟩
      have hcfg := hl.config N le_rfl
      have hopt : qpOptimal call' (lift (dims1 3 2) (configOf restOps restOuts) (cvec 1 3).get (cvec 1 0).get
          fun _ => (cvec 1 0).get) := by
        have := rest_optimal hask (by rw [hcfg]; rfl) (by rw [hcfg]; exact rest_weights.1) (by rw [hcfg]; exact rest_rest)
        rwa [hcfg] at this
      have hcmd : ∀ a, a < (dims1 3 2).nu → r'.cmd.get a = 0 := fun a ha =>
        (c70_keeps_rest hask (by rw [hcfg]; rfl) (by rw [hcfg]; exact rest_weights.1) (by rw [hcfg]; exact rest_weights.2)
          (by rw [hcfg]; exact rest_rest) hopt).1 a ha
      let r2 : Nat → LResult ℚ := fun t => if t = N then r' else r t
      let call2 : Nat → OsqpCall ℚ := fun t => if t = N then call' else call t
      let seq2 : Nat → Mat ℚ × Mat ℚ × Mat ℚ := fun t => if t = N then m'.getOptimalSequence else seq t
      have same : ∀ t, t ≤ N → loopOuts restOuts r2 call2 t = loopOuts restOuts r call t := fun t ht =>
        loop_congr fun i hi => ⟨if_neg (by omega), if_neg (by omega)⟩
      refine ⟨r2, call2, seq2, m', ⟨fun t ht => ?_, fun t a ht ha => ?_, fun t a ht ha => ?_⟩, fun t ht => ?_, ?_, ?_⟩
      · rw [same t (by omega)]
        rcases Nat.lt_or_ge t N with h | h
        · obtain ⟨m1, m2, h1, h2⟩ := hl.asked t h
          rw [show r2 t = r t from if_neg (by omega), show call2 t = call t from if_neg (by omega),
            show seq2 t = seq t from if_neg (by omega)]
          exact ⟨m1, m2, h1, h2⟩
        · obtain rfl : t = N := by omega
          rw [show r2 t = r' from if_pos rfl, show call2 t = call' from if_pos rfl, show seq2 t = _ from if_pos rfl]
          exact ⟨m, m', hask, rfl⟩
      · rcases Nat.lt_or_ge t N with h | h
        · rw [show r2 t = r t from if_neg (by omega)]; exact hl.applied t a h ha
        · obtain rfl : t = N := by omega
          rw [show r2 t = r' from if_pos rfl, hcmd a ha]; rfl
      · rcases Nat.lt_or_ge t N with h | h
        · rw [show r2 t = r t from if_neg (by omega)]; exact hl.plant t a h ha
        · obtain rfl : t = N := by omega
          rw [show r2 t = r' from if_pos rfl, dot_congr hcmd]
          exact (rest_rest.rest 0 a (by decide) ha).symm
      · rcases Nat.lt_or_ge t N with h | h
        · rw [show call2 t = call t from if_neg (by omega)]; exact hx t h
        · obtain rfl : t = N := by omega
          rw [show call2 t = call' from if_pos rfl]
          exact ⟨_, _, _, _, rfl, hopt⟩
      · show Configured _ (loopOps restOps x u oc N ++ _) (loopOuts restOuts r2 call2 N ++ _) m'
        rw [same N le_rfl, show r2 N = r' from if_pos rfl, show call2 N = call' from if_pos rfl]
        exact configured_snoc hm ⟨⟨rfl, rfl⟩, fun s hs => by cases hs⟩ hstep
      · exact LMpc.step_warm (op := .optimize (x N) (u N) (oc N)) hd (configured_inv hm) hw ⟨rfl, rfl⟩ (by simp [LMpc.Safe, oc]) hstep
  obtain ⟨r, call, seq, m, h1, h2, -, -⟩ := run N
  exact ⟨oc, r, call, seq, h1, h2, rest_rest⟩

end Mpc.Props
