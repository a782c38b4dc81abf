import Verif.Props.Sample
import Verif.Proofs.Doubles

/-
C123: signals that play no role, and signals that are not numbers.
-/
namespace Mpc.Props
open Exec Spec
set_option linter.unusedSectionVars false

variable {K : Type} [Field K] [DecidableEq K] [LinearOrder K] [IsStrictOrderedRing K]
variable {d : Dims} {ops ops' : List (LOp K)} {outs outs' : List (LOut K)} {x0 u0 : Vec K} {oc oc' : OsqpOutcome K}
  {m m' m1 m1' : LMpc K} {r r' : LResult K} {call call' : OsqpCall K} {s s' : Doubles K} {p p' : FltProblem K}

/-! ### Reading the problem -/

private theorem posed_get (h : Posed d ops outs s m p) :
    m.b.d = d ∧ 0 < d.ph ∧ m.b.Repr (configOf ops outs) ∧
    m.b.GetF ⟨d.nx, s.state⟩ ⟨d.nu, s.command⟩ ⟨d.ny, d.ph, fun a k => s.yRef k a⟩ ⟨d.nu, d.ph, fun a k => s.uRef k a⟩
      ⟨d.nu, d.ph, fun a k => s.duRef k a⟩ ⟨d.ndu, d.ph, fun e k => s.dist k e⟩ p := by
  have hi := configured_inv h.toConfigured
  have hd := hi.builder.dims
  refine ⟨hd, h.valid.ph_pos, hi.builder.repr, ?_⟩
  have := m.b.getF_post hi.builder.shaped (x0 := ⟨d.nx, s.state⟩) (u0 := ⟨d.nu, s.command⟩)
    (yRef := ⟨d.ny, d.ph, fun a k => s.yRef k a⟩) (uRef := ⟨d.nu, d.ph, fun a k => s.uRef k a⟩)
    (duRef := ⟨d.nu, d.ph, fun a k => s.duRef k a⟩) (uMeas := ⟨d.ndu, d.ph, fun e k => s.dist k e⟩)
    (by rw [hd]; exact ⟨rfl, rfl, ⟨rfl, rfl⟩, ⟨rfl, rfl⟩, ⟨rfl, rfl⟩, ⟨rfl, rfl⟩⟩) (by rw [hd]; exact h.valid.ph_pos)
  exact this.of_eq h.posed

/-- The groups of rows, counted as in the code. -/
private theorem rows_split {ρ : Nat} (h : ρ < rowCount d) :
    (∃ a, a < d.nx ∧ ρ = a) ∨ (∃ a, a < d.nu ∧ ρ = d.nx + a) ∨
    (∃ i a, i < d.ph ∧ a < d.nu + d.nx ∧ ρ = (i + 1) * (d.nu + d.nx) + a) ∨
    (∃ k, k < d.nS ∧ ρ = d.nS + k) ∨ (∃ i a, i ≤ d.ph ∧ a < d.ny ∧ ρ = d.nS + (d.nS + (i * d.ny + a))) ∨
    (∃ k, d.nS + d.nY ≤ k ∧ k < d.nI ∧ ρ = d.nS + k) := by
  rw [Solved.rowCount_eq] at h
  have hC : d.nC = d.nS + d.nI := rfl
  by_cases h1 : ρ < d.nS
  · obtain ⟨i, a, hi, ha, rfl⟩ := exists_block (s := d.nu + d.nx) (n := d.ph + 1) h1
    rcases i with _ | i
    · by_cases hx : a < d.nx
      · exact .inl ⟨a, hx, by omega⟩
      · exact .inr (.inl ⟨a - d.nx, by omega, by omega⟩)
    · exact .inr (.inr (.inl ⟨i, a, by omega, ha, rfl⟩))
  · obtain ⟨k, rfl⟩ := Nat.exists_eq_add_of_le (Nat.le_of_not_lt h1)
    by_cases h2 : k < d.nS
    · exact .inr (.inr (.inr (.inl ⟨k, h2, rfl⟩)))
    · by_cases h3 : k < d.nS + d.nY
      · obtain ⟨j, rfl⟩ := Nat.exists_eq_add_of_le (Nat.le_of_not_lt h2)
        obtain ⟨i, a, hi, ha, rfl⟩ := exists_block (s := d.ny) (n := d.ph + 1) (show j < d.nY by omega)
        exact .inr (.inr (.inr (.inr (.inl ⟨i, a, by omega, ha, rfl⟩))))
      · exact .inr (.inr (.inr (.inr (.inr ⟨k, by omega, by omega, rfl⟩))))

/-! ### C123: what the code does -/

/-- C123. Whatever `double`s the signals are, the problem is built: there is no fault. -/
theorem c123_total (h : Configured d ops outs m) (s : Doubles K) : ∃ p, Posed d ops outs s m p := by
  have hi := configured_inv h
  have hd := hi.builder.dims
  obtain ⟨p, hp, -⟩ := m.b.getF_post hi.builder.shaped (x0 := ⟨d.nx, s.state⟩) (u0 := ⟨d.nu, s.command⟩)
    (yRef := ⟨d.ny, d.ph, fun a k => s.yRef k a⟩) (uRef := ⟨d.nu, d.ph, fun a k => s.uRef k a⟩)
    (duRef := ⟨d.nu, d.ph, fun a k => s.duRef k a⟩) (uMeas := ⟨d.ndu, d.ph, fun e k => s.dist k e⟩)
    (by rw [hd]; exact ⟨rfl, rfl, ⟨rfl, rfl⟩, ⟨rfl, rfl⟩, ⟨rfl, rfl⟩, ⟨rfl, rfl⟩⟩) (by rw [hd]; exact h.valid.ph_pos)
  exact ⟨p, h, hp⟩

/-- C123. If all signals are numbers, the problem posed on `double`s is the one OSQP is handed by `optimize`. -/
theorem c123_numbers (h : Asked d ops outs x0 u0 oc m m' r call)
    (hp : Posed d ops outs (Doubles.ofNumbers (configOf ops outs) x0.get u0.get) m p) :
    (∀ i, i < varCount d → p.q.get i = .fin (call.q.get i)) ∧
    (∀ ρ, ρ < rowCount d → p.l.get ρ = .num (call.l.get ρ) ∧ p.u.get ρ = .num (call.u.get ρ)) := by
  obtain ⟨st, obj, sol, -, hs⟩ := asked_solved h
  obtain ⟨hd, hph, -, g⟩ := posed_get hp
  have g' := hs.get
  have hyr := hs.inv.opt.yRef
  have hur := hs.inv.opt.uRef
  have hdr := hs.inv.opt.duRef
  have hmr := hs.inv.opt.dist
  have hM : ∀ c, c < d.ph → ∀ k, k < m.b.d.ndu →
      Flt.fin ((configOf ops outs).dist c k) = Flt.fin (m.o.extInputMeas.get k c) := by
    intro c hc k hk
    rw [hd] at hk
    rw [hmr k c hk hc]
  rw [hs.call.q, hs.call.l, hs.call.u]
  constructor
  · intro i hi
    rw [Solved.varCount_eq] at hi
    rcases Solved.var_cases hi with ⟨i, a, hi', ha, rfl⟩ | ⟨i, a, hi', ha, rfl⟩
    all_goals replace hi := hi'
    · have q1 := g.qx i a; have q2 := g'.qx i a
      rw [hd] at q1 q2
      rw [q1 hi ha, q2 hi ha]
      refine Builder.qDense_fin (fun e he => ?_) (fun e he => ?_) (hM (i - 1) (by omega))
      · exact congrArg Flt.fin (hyr e (i - 1) (by rw [hd] at he; exact he) (by omega)).symm
      · exact congrArg Flt.fin (hur e (i - 1) (by rw [hd] at he; exact he) (by omega)).symm
    · have q1 := g.qd i a; have q2 := g'.qd i a
      rw [hd] at q1 q2
      rw [q1 hi ha, q2 hi ha, hdr a (i - 1) ha (by omega)]
      rfl
  · intro ρ hρ
    rcases rows_split hρ with ⟨a, ha, ha'⟩ | ⟨a, ha, rfl⟩ | ⟨i, a, hi, ha, rfl⟩ | ⟨k, hk, rfl⟩ | ⟨i, a, hi, ha, rfl⟩ |
      ⟨k, hk1, hk2, rfl⟩
    all_goals
      have a1 := g.lu; have a2 := g'.leqlu
      have hsS : d.nu + d.nx ≤ d.nS := by
        have := block_end_le (s := d.nu + d.nx) (i := 0) (n := d.ph + 1) (by omega)
        rw [show d.nS = (d.ph + 1) * (d.nu + d.nx) from rfl]
        omega
      rw [hd] at a1 a2
    · subst ha'
      have q1 := g.l0x ρ; have q2 := g'.l0x ρ
      rw [hd] at q1 q2
      rw [← a1 _ (by omega), ← a2 _ (by omega), q1 ha, q2 ha]
      exact ⟨rfl, rfl⟩
    · have q1 := g.l0u a; have q2 := g'.l0u a
      rw [hd] at q1 q2
      rw [← a1 _ (by omega), ← a2 _ (by omega), q1 ha, q2 ha]
      exact ⟨rfl, rfl⟩
    · have q1 := g.le i a; have q2 := g'.le i a
      have hb : (i + 1) * (d.nu + d.nx) + a < d.nS := block_lt ha (by omega)
      rw [hd] at q1 q2
      rw [← a1 _ hb, ← a2 _ hb, q1 hi ha, q2 hi ha, Builder.negDistX_fin (M := m.o.extInputMeas) (hM i hi)]
      exact ⟨rfl, rfl⟩
    · have q1 := g.lx k; have q2 := g'.lx k; have q3 := g.ux k; have q4 := g'.ux k
      rw [hd] at q1 q2 q3 q4
      rw [q1 hk, q2 hk, q3 hk, q4 hk]
      exact ⟨rfl, rfl⟩
    · have q1 := g.ly i a; have q2 := g'.ly i a; have q3 := g.uy i a; have q4 := g'.uy i a
      rw [hd] at q1 q2 q3 q4
      rw [q1 hi ha, q2 hi ha, q3 hi ha, q4 hi ha,
        Builder.negDistY_fin (M := m.o.extInputMeas) (hM (i - 1) (by omega)), Flt.num_add_fin, Flt.num_add_fin]
      exact ⟨rfl, rfl⟩
    · have q1 := g.lt k; have q2 := g'.lt k; have q3 := g.ut k; have q4 := g'.ut k
      rw [hd] at q1 q2 q3 q4
      rw [q1 hk1 hk2, q2 hk1 hk2, q3 hk1 hk2, q4 hk1 hk2]
      exact ⟨rfl, rfl⟩

/-- C123. How far a signal which is not a number reaches (no signal being infinite):
* a NaN among the output references, the input references or the disturbances of a step makes the whole linear cost of that
  step NaN — every state and every input, whatever the weights are (the references of the first step also that of the
  measured state);
* a NaN increment reference makes its own entry NaN only;
* a NaN disturbance of a step makes every dynamics row of that step and every output row of it NaN, even those of unlimited
  outputs, whatever the disturbance model is;
* a NaN in the measured state or in the last command affects its own row only;
* all other bounds are never NaN. -/
theorem c123_spread (h : Posed d ops outs s m p) (hs : s.NoInfinity d) :
    (∀ k e, k ≤ d.ph → e < d.nx + d.nu → (p.q.get (k * (d.nx + d.nu) + e) = .nan ↔
      (∃ a, a < d.ny ∧ s.yRef (k - 1) a = .nan) ∨ (∃ a, a < d.nu ∧ s.uRef (k - 1) a = .nan) ∨
      (0 < d.ny + d.nu ∧ ∃ a, a < d.ndu ∧ s.dist (k - 1) a = .nan))) ∧
    (∀ k a, k < d.ph → a < d.nu →
      (p.q.get ((d.ph + 1) * (d.nx + d.nu) + k * d.nu + a) = .nan ↔ s.duRef (k - 1) a = .nan)) ∧
    (∀ a, a < d.nx → (p.l.get a = .nan ↔ s.state a = .nan)) ∧
    (∀ a, a < d.nu → (p.l.get (d.nx + a) = .nan ↔ s.command a = .nan)) ∧
    (∀ k e, k < d.ph → e < d.nx + d.nu →
      (p.l.get ((k + 1) * (d.nx + d.nu) + e) = .nan ↔ ∃ a, a < d.ndu ∧ s.dist k a = .nan)) ∧
    (∀ ρ, ρ < boundRow d → p.u.get ρ = p.l.get ρ) ∧
    (∀ k a, k ≤ d.ph → a < d.ny →
      (p.l.get (outputRow d + k * d.ny + a) = .nan ↔ ∃ e, e < d.ndu ∧ s.dist (k - 1) e = .nan) ∧
      (p.u.get (outputRow d + k * d.ny + a) = .nan ↔ ∃ e, e < d.ndu ∧ s.dist (k - 1) e = .nan)) ∧
    (∀ ρ, boundRow d ≤ ρ → ρ < rowCount d → ¬ (outputRow d ≤ ρ ∧ ρ < incrementRow d) →
      p.l.get ρ ≠ .nan ∧ p.u.get ρ ≠ .nan) := by
  obtain ⟨hd, hph, -, g⟩ := posed_get h
  have hM : ∀ c, c < d.ph → ∀ k, k < m.b.d.ndu → (s.dist c k).NoInf := by
    intro c hc k hk
    rw [hd] at hk
    exact hs.dist c k hc hk
  have hadd : ∀ (e : Ext K) (x : Flt K), x.NoInf → ((.num e + x : Flt K) = .nan ↔ x = .nan) := by
    intro e x hx
    rcases hx with rfl | ⟨a, rfl⟩
    · simp
    · simp
  have hS : (d.ph + 1) * (d.nx + d.nu) = d.nS := by rw [Nat.add_comm d.nx]; rfl
  refine ⟨?_, ?_, ?_, ?_, ?_, ?_, ?_, ?_⟩
  · intro k e hk he
    have q1 := g.qx k e
    rw [hd] at q1
    rw [Nat.add_comm d.nx d.nu] at he ⊢
    rw [q1 hk he, Builder.qDense_nan (by rw [hd]; exact fun a ha => hs.yRef (k - 1) a (by omega) ha)
      (by rw [hd]; exact fun a ha => hs.uRef (k - 1) a (by omega) ha) (hM (k - 1) (by omega)), hd]
  · intro k a hk ha
    have q1 := g.qd k a
    rw [hd] at q1
    rw [hS, Nat.add_assoc, q1 hk ha, Flt.neg_eq_nan]
    exact Flt.fin_mul_eq_nan (hs.duRef (k - 1) a (by omega) ha)
  · intro a ha
    have q1 := g.l0x a
    rw [hd] at q1
    rw [q1 ha]
    exact Flt.neg_eq_nan
  · intro a ha
    have q1 := g.l0u a
    rw [hd] at q1
    rw [q1 ha]
    exact Flt.neg_eq_nan
  · intro k e hk he
    have q1 := g.le k e
    rw [hd] at q1
    rw [Nat.add_comm d.nx d.nu] at he ⊢
    rw [q1 hk he, Builder.negDistX_nan (hM k hk), hd]
  · intro ρ hρ
    have q1 := g.lu ρ
    rw [hd] at q1
    rw [Solved.boundRow_eq] at hρ
    exact (q1 hρ).symm
  · intro k a hk ha
    have q1 := g.ly k a; have q2 := g.uy k a
    rw [hd] at q1 q2
    have e : outputRow d + k * d.ny + a = d.nS + (d.nS + (k * d.ny + a)) := by
      rw [Solved.outputRow_eq]; omega
    rw [e, q1 hk ha, q2 hk ha, hadd _ _ (Builder.negDistY_noInf (hM (k - 1) (by omega))),
      hadd _ _ (Builder.negDistY_noInf (hM (k - 1) (by omega))), Builder.negDistY_nan (hM (k - 1) (by omega)), hd]
    exact ⟨Iff.rfl, Iff.rfl⟩
  · intro ρ h1 h2 h3
    have q1 := g.lx; have q2 := g.ux; have q3 := g.lt; have q4 := g.ut
    rw [hd] at q1 q2 q3 q4
    rw [Solved.outputRow_eq, Solved.incrementRow_eq] at h3
    rw [Solved.boundRow_eq] at h1
    rw [Solved.rowCount_eq] at h2
    have hC : d.nC = d.nS + d.nI := rfl
    obtain ⟨k, rfl⟩ := Nat.exists_eq_add_of_le h1
    by_cases hk : k < d.nS
    · rw [q1 k hk, q2 k hk]; exact ⟨Flt.num_ne_nan _, Flt.num_ne_nan _⟩
    · rw [q3 k (by omega) (by omega), q4 k (by omega) (by omega)]; exact ⟨Flt.num_ne_nan _, Flt.num_ne_nan _⟩

/-- C123. An infinite reference of weight zero makes the whole linear cost of its step NaN, even where all other signals are
numbers. -/
theorem c123_infinite_unweighted (h : Posed d ops outs s m p) {k a : Nat} (hk : k < d.ph)
    (hi : (a < d.ny ∧ (configOf ops outs).wY k a = 0 ∧ (s.yRef k a = .num .posInf ∨ s.yRef k a = .num .negInf)) ∨
      (a < d.nu ∧ (configOf ops outs).wU k a = 0 ∧ (s.uRef k a = .num .posInf ∨ s.uRef k a = .num .negInf))) {e : Nat}
    (he : e < d.nx + d.nu) : p.q.get ((k + 1) * (d.nx + d.nu) + e) = .nan := by
  obtain ⟨hd, hph, hr, g⟩ := posed_get h
  have q1 := g.qx (k + 1) e
  have w := hr.wY a (k + 1)
  have w' := hr.wU a (k + 1)
  rw [hd] at q1 w w'
  rw [Nat.add_comm d.nx d.nu] at he ⊢
  rw [q1 (by omega) he, Builder.qDense_flt]
  rcases hi with ⟨ha, hw, hi⟩ | ⟨ha, hw, hi⟩
  · refine Flt.sum_nan (i := a) (by rw [hd]; omega) ?_
    have hwd : m.b.wDiag (k + 1) a = 0 := by
      unfold Builder.wDiag
      rw [hd, if_pos ha, w ha (by omega)]
      exact hw
    rw [hwd, mul_zero]
    unfold Builder.extRef
    rw [hd, if_pos ha]
    show Flt.fin 0 * (-(s.yRef k a) + _) = _
    rcases hi with hi | hi <;> rw [hi]
    · exact Flt.zero_mul_inf_add (.inr rfl) _
    · exact Flt.zero_mul_inf_add (.inl rfl) _
  · refine Flt.sum_nan (i := d.ny + a) (by rw [hd]; omega) ?_
    have hwd : m.b.wDiag (k + 1) (d.ny + a) = 0 := by
      unfold Builder.wDiag
      rw [hd, if_neg (by omega), Nat.add_sub_cancel_left, w' ha (by omega)]
      exact hw
    rw [hwd, mul_zero]
    unfold Builder.extRef
    rw [hd, if_neg (by omega), Nat.add_sub_cancel_left]
    show Flt.fin 0 * (-(s.uRef k a) + _) = _
    rcases hi with hi | hi <;> rw [hi]
    · exact Flt.zero_mul_inf_add (.inr rfl) _
    · exact Flt.zero_mul_inf_add (.inl rfl) _

/-- C123. The steps stay apart, whatever the signals are: the linear cost of a step depends on the references and
disturbances of that step only. -/
theorem c123_step_local (h : Posed d ops outs s m p) (h' : Posed d ops outs s' m p') {k e : Nat} (hk : k ≤ d.ph)
    (he : e < d.nx + d.nu) (hy : ∀ a, a < d.ny → s'.yRef (k - 1) a = s.yRef (k - 1) a)
    (hu : ∀ a, a < d.nu → s'.uRef (k - 1) a = s.uRef (k - 1) a)
    (hm : ∀ a, a < d.ndu → s'.dist (k - 1) a = s.dist (k - 1) a) :
    p'.q.get (k * (d.nx + d.nu) + e) = p.q.get (k * (d.nx + d.nu) + e) := by
  obtain ⟨hd, hph, -, g⟩ := posed_get h
  obtain ⟨-, -, -, g'⟩ := posed_get h'
  have q1 := g.qx k e; have q2 := g'.qx k e
  rw [hd] at q1 q2
  rw [Nat.add_comm d.nx d.nu] at he ⊢
  rw [q1 hk he, q2 hk he, Builder.qDense_flt, Builder.qDense_flt]
  refine sumTo_congr fun f hf => ?_
  have e1 : m.b.toFlt.distY ⟨d.ndu, d.ph, fun e k => s'.dist k e⟩ f (k - 1) =
      m.b.toFlt.distY ⟨d.ndu, d.ph, fun e k => s.dist k e⟩ f (k - 1) := by
    refine sumTo_congr fun j hj => ?_
    have hj' : j < d.ndu := by
      have : m.b.toFlt.d = d := hd
      rw [this] at hj; exact hj
    dsimp only
    rw [hm j hj']
  rw [e1]
  have e2 : Builder.extRef m.b.d ⟨d.ny, d.ph, fun a k => s'.yRef k a⟩ ⟨d.nu, d.ph, fun a k => s'.uRef k a⟩ f (k - 1) =
      Builder.extRef m.b.d ⟨d.ny, d.ph, fun a k => s.yRef k a⟩ ⟨d.nu, d.ph, fun a k => s.uRef k a⟩ f (k - 1) := by
    rw [hd] at hf ⊢
    unfold Builder.extRef
    dsimp only
    split_ifs with hx
    · exact hy f hx
    · exact hu _ (by omega)
  rw [e2]

/-! ### C123: signals that play no role -/

/-- C123, in full: a reference of weight zero and a disturbance without effect in the model do not influence the problem,
whatever values allowed by `P` they have. -/
def C123Claim (K : Type) [Field K] [DecidableEq K] [LinearOrder K] (P : Dims → Doubles K → Prop) : Prop :=
  ∀ (d : Dims) (ops : List (LOp K)) (outs : List (LOut K)) (m : LMpc K) (s s' : Doubles K) (p p' : FltProblem K),
    Posed d ops outs s m p → Posed d ops outs s' m p' → P d s → P d s' → s.AgreeUsed d (configOf ops outs) s' →
    SameDoubles d p p'

/-- None of the signals is NaN. -/
structure NoNaN (d : Dims) (s : Doubles K) : Prop where
  state : ∀ a, a < d.nx → s.state a ≠ .nan
  command : ∀ a, a < d.nu → s.command a ≠ .nan
  yRef : ∀ k a, k < d.ph → a < d.ny → s.yRef k a ≠ .nan
  uRef : ∀ k a, k < d.ph → a < d.nu → s.uRef k a ≠ .nan
  duRef : ∀ k a, k < d.ph → a < d.nu → s.duRef k a ≠ .nan
  dist : ∀ k e, k < d.ph → e < d.ndu → s.dist k e ≠ .nan

/-- the number, if it is one -/
private def val : Flt K → K
  | .num (.fin x) => x
  | _ => 0

private theorem fin_val {x : Flt K} (h : x = .nan ∨ ∃ a, x = .fin a) (h' : x ≠ .nan) : x = .fin (val x) := by
  rcases h with h | ⟨a, rfl⟩
  · exact absurd h h'
  · rfl

/-- C123, partial: it holds for numbers. -/
theorem c123_unused_partial : C123Claim K (fun d s => s.NoInfinity d ∧ NoNaN d s) := by
  intro d ops outs m s s' p p' h h' hs hs' hu
  obtain ⟨hd, hph, hr, g⟩ := posed_get h
  obtain ⟨-, -, -, g'⟩ := posed_get h'
  have fy := fun k a hk ha => fin_val (hs.1.yRef k a hk ha) (hs.2.yRef k a hk ha)
  have fu := fun k a hk ha => fin_val (hs.1.uRef k a hk ha) (hs.2.uRef k a hk ha)
  have fd := fun k a hk ha => fin_val (hs.1.duRef k a hk ha) (hs.2.duRef k a hk ha)
  have fm := fun k a hk ha => fin_val (hs.1.dist k a hk ha) (hs.2.dist k a hk ha)
  have fy' := fun k a hk ha => fin_val (hs'.1.yRef k a hk ha) (hs'.2.yRef k a hk ha)
  have fu' := fun k a hk ha => fin_val (hs'.1.uRef k a hk ha) (hs'.2.uRef k a hk ha)
  have fd' := fun k a hk ha => fin_val (hs'.1.duRef k a hk ha) (hs'.2.duRef k a hk ha)
  have fm' := fun k a hk ha => fin_val (hs'.1.dist k a hk ha) (hs'.2.dist k a hk ha)
  have hU : Builder.UsedEq m.b.d (configOf ops outs) ⟨d.ny, d.ph, fun a k => val (s.yRef k a)⟩
      ⟨d.nu, d.ph, fun a k => val (s.uRef k a)⟩ ⟨d.nu, d.ph, fun a k => val (s.duRef k a)⟩
      ⟨d.ndu, d.ph, fun a k => val (s.dist k a)⟩ ⟨d.ny, d.ph, fun a k => val (s'.yRef k a)⟩
      ⟨d.nu, d.ph, fun a k => val (s'.uRef k a)⟩ ⟨d.nu, d.ph, fun a k => val (s'.duRef k a)⟩
      ⟨d.ndu, d.ph, fun a k => val (s'.dist k a)⟩ := by
    rw [hd]
    exact ⟨fun k a hk ha h => congrArg val (hu.yRef k a hk ha h), fun k a hk ha h => congrArg val (hu.uRef k a hk ha h),
      fun k a hk ha h => congrArg val (hu.duRef k a hk ha h), fun k a hk ha h => congrArg val (hu.dist k a hk ha h)⟩
  have mM : ∀ c, c < d.ph → ∀ k, k < m.b.d.ndu → s.dist c k = .fin (val (s.dist c k)) := by
    intro c hc k hk; rw [hd] at hk; exact fm c k hc hk
  have mM' : ∀ c, c < d.ph → ∀ k, k < m.b.d.ndu → s'.dist c k = .fin (val (s'.dist c k)) := by
    intro c hc k hk; rw [hd] at hk; exact fm' c k hc hk
  have hsS : d.nu + d.nx ≤ d.nS := by
    have := block_end_le (s := d.nu + d.nx) (i := 0) (n := d.ph + 1) (by omega)
    rw [show d.nS = (d.ph + 1) * (d.nu + d.nx) from rfl]
    omega
  have hX : ∀ k a, k < d.ph → a < d.nu + d.nx →
      m.b.toFlt.negDistX ⟨d.ndu, d.ph, fun e k => s'.dist k e⟩ a k = m.b.toFlt.negDistX ⟨d.ndu, d.ph, fun e k => s.dist k e⟩ a k := by
    intro k a hk ha
    rw [Builder.negDistX_fin (uMeas := ⟨d.ndu, d.ph, fun e k => s.dist k e⟩)
        (M := ⟨d.ndu, d.ph, fun a k => val (s.dist k a)⟩) (mM k hk),
      Builder.negDistX_fin (M := ⟨d.ndu, d.ph, fun a k => val (s'.dist k a)⟩) (mM' k hk),
      hU.distX hr (by rw [hd]; exact hk) (by rw [hd]; exact ha)]
  have hY : ∀ k a, k < d.ph → a < d.ny →
      m.b.toFlt.negDistY ⟨d.ndu, d.ph, fun e k => s'.dist k e⟩ a k = m.b.toFlt.negDistY ⟨d.ndu, d.ph, fun e k => s.dist k e⟩ a k := by
    intro k a hk ha
    rw [Builder.negDistY_fin (uMeas := ⟨d.ndu, d.ph, fun e k => s.dist k e⟩)
        (M := ⟨d.ndu, d.ph, fun a k => val (s.dist k a)⟩) (mM k hk),
      Builder.negDistY_fin (M := ⟨d.ndu, d.ph, fun a k => val (s'.dist k a)⟩) (mM' k hk),
      hU.distY hr (by rw [hd]; exact hk) (by rw [hd]; omega)]
  have rows : ∀ ρ, ρ < rowCount d → p'.l.get ρ = p.l.get ρ ∧ p'.u.get ρ = p.u.get ρ := by
    intro ρ hρ
    have a1 := g.lu; have a2 := g'.lu
    rw [hd] at a1 a2
    rcases rows_split hρ with ⟨a, ha, ha'⟩ | ⟨a, ha, rfl⟩ | ⟨i, a, hi, ha, rfl⟩ | ⟨k, hk, rfl⟩ | ⟨i, a, hi, ha, rfl⟩ |
      ⟨k, hk1, hk2, rfl⟩
    · subst ha'
      have q1 := g.l0x ρ; have q2 := g'.l0x ρ
      rw [hd] at q1 q2
      rw [← a1 _ (by omega), ← a2 _ (by omega), q1 ha, q2 ha]
      dsimp only
      rw [hu.state _ ha]
      exact ⟨rfl, rfl⟩
    · have q1 := g.l0u a; have q2 := g'.l0u a
      rw [hd] at q1 q2
      rw [← a1 _ (by omega), ← a2 _ (by omega), q1 ha, q2 ha]
      dsimp only
      rw [hu.command a ha]
      exact ⟨rfl, rfl⟩
    · have q1 := g.le i a; have q2 := g'.le i a
      have hb : (i + 1) * (d.nu + d.nx) + a < d.nS := block_lt ha (by omega)
      rw [hd] at q1 q2
      rw [← a1 _ hb, ← a2 _ hb, q1 hi ha, q2 hi ha, hX i a hi ha]
      exact ⟨rfl, rfl⟩
    · have q1 := g.lx k; have q2 := g'.lx k; have q3 := g.ux k; have q4 := g'.ux k
      rw [hd] at q1 q2 q3 q4
      rw [q1 hk, q2 hk, q3 hk, q4 hk]
      exact ⟨rfl, rfl⟩
    · have q1 := g.ly i a; have q2 := g'.ly i a; have q3 := g.uy i a; have q4 := g'.uy i a
      rw [hd] at q1 q2 q3 q4
      rw [q1 hi ha, q2 hi ha, q3 hi ha, q4 hi ha, hY (i - 1) a (by omega) ha]
      exact ⟨rfl, rfl⟩
    · have q1 := g.lt k; have q2 := g'.lt k; have q3 := g.ut k; have q4 := g'.ut k
      rw [hd] at q1 q2 q3 q4
      rw [q1 hk1 hk2, q2 hk1 hk2, q3 hk1 hk2, q4 hk1 hk2]
      exact ⟨rfl, rfl⟩
  refine ⟨?_, fun ρ hρ => (rows ρ hρ).1, fun ρ hρ => (rows ρ hρ).2⟩
  intro i hi
  rw [Solved.varCount_eq] at hi
  rcases Solved.var_cases hi with ⟨i, a, hi', ha, rfl⟩ | ⟨i, a, hi', ha, rfl⟩
  all_goals replace hi := hi'
  · have q1 := g.qx i a; have q2 := g'.qx i a
    rw [hd] at q1 q2
    rw [q1 hi ha, q2 hi ha,
      Builder.qDense_fin (uMeas := ⟨d.ndu, d.ph, fun e k => s.dist k e⟩)
        (Y := ⟨d.ny, d.ph, fun a k => val (s.yRef k a)⟩) (U := ⟨d.nu, d.ph, fun a k => val (s.uRef k a)⟩)
        (M := ⟨d.ndu, d.ph, fun a k => val (s.dist k a)⟩) (fun e he => fy _ e (by omega) (by rw [hd] at he; exact he))
        (fun e he => fu _ e (by omega) (by rw [hd] at he; exact he)) (mM (i - 1) (by omega)),
      Builder.qDense_fin (Y := ⟨d.ny, d.ph, fun a k => val (s'.yRef k a)⟩) (U := ⟨d.nu, d.ph, fun a k => val (s'.uRef k a)⟩)
        (M := ⟨d.ndu, d.ph, fun a k => val (s'.dist k a)⟩) (fun e he => fy' _ e (by omega) (by rw [hd] at he; exact he))
        (fun e he => fu' _ e (by omega) (by rw [hd] at he; exact he)) (mM' (i - 1) (by omega)),
      hU.qEntry hr (by rw [hd]; exact hph) (by rw [hd]; exact hi)]
  · have q1 := g.qd i a; have q2 := g'.qd i a
    rw [hd] at q1 q2
    rw [q1 hi ha, q2 hi ha]
    dsimp only
    rw [fd (i - 1) a (by omega) ha, fd' (i - 1) a (by omega) ha]
    have := hU.increment hr (i := i) (a := a) (by rw [hd]; exact hi) (by rw [hd]; exact ha)
    show Flt.fin (-(_ * _)) = Flt.fin (-(_ * _))
    rw [this]

/-- C123. At the API, in exact arithmetic: two controllers whose histories leave configurations which differ at most in
references of weight zero and in disturbances without effect hand OSQP the same problem. -/
theorem c123_unused_asked (h : Asked d ops outs x0 u0 oc m m' r call)
    (h' : Asked d ops' outs' x0 u0 oc' m1 m1' r' call') (hc : (configOf ops outs).AgreeUsed d (configOf ops' outs')) :
    SameProblem call call' := by
  obtain ⟨st, obj, sol, -, hs⟩ := asked_solved h
  obtain ⟨st', obj', sol', -, hs'⟩ := asked_solved h'
  have hph := hs.valid.ph_pos
  have hd := hs'.inv.builder.dims
  -- the second controller, with the signals of the first
  have hB : ∀ {b : Builder K}, Builder.Good d b (configOf ops' outs') → Builder.Good d b
      { configOf ops' outs' with yRef := (configOf ops outs).yRef, uRef := (configOf ops outs).uRef
                                 duRef := (configOf ops outs).duRef, dist := (configOf ops outs).dist } := by
    rintro b ⟨e1, e2, e3, e4⟩
    exact ⟨e1, e2, e3, ⟨e4.Axx, e4.Axu, e4.Aux, e4.Auu, e4.Bx, e4.Bu, e4.Cyx, e4.Cyu, e4.Cux, e4.Cuu, e4.Bvx, e4.Bvu, e4.Dvy,
      e4.Dvu, e4.wY, e4.wU, e4.wDu, e4.xMin, e4.xMax, e4.uMin, e4.uMax, e4.yMin, e4.yMax, e4.sMin, e4.sMax, e4.sMul⟩⟩
  let o1 : LOpt K := { m1.o with
    outSysRef := m.o.outSysRef, cmdSysRef := m.o.cmdSysRef, deltaCmdSysRef := m.o.deltaCmdSysRef
    extInputMeas := m.o.extInputMeas }
  let o2 : LOpt K := { o1.released with
    seqState := Mat.const (d.ph + 1) d.nx 0
    seqInput := Mat.const (d.ph + 1) d.nu 0
    seqOutput := Mat.const (d.ph + 1) d.ny 0
    result := { solver_status := -1, is_feasible := false, cost := .posInf, status := .ERROR, cmd := m1.o.result.cmd } }
  obtain ⟨b1, b2, b3, b4, b5, b6, b7, b8, b9, -⟩ := hs.inv.opt
  obtain ⟨a1, a2, a3, a4, a5, a6, a7, a8, a9, a10, a11, a12, a13, a14, a15⟩ := hs'.inv.opt
  have hI0 : LMpc.Inv d { m1 with o := o1 }
      { configOf ops' outs' with yRef := (configOf ops outs).yRef, uRef := (configOf ops outs).uRef
                                 duRef := (configOf ops outs).duRef, dist := (configOf ops outs).dist } :=
    ⟨hs'.inv.dims, hB hs'.inv.builder, ⟨a1, b2, b3, b4, b5, b6, b7, b8, b9, a10, a11, a12, a13, a14, a15⟩⟩
  have hI1 : LMpc.Inv d { m1' with o := o2 }
      { configOf ops' outs' with yRef := (configOf ops outs).yRef, uRef := (configOf ops outs).uRef
                                 duRef := (configOf ops outs).duRef, dist := (configOf ops outs).dist } :=
    ⟨hs'.inv'.dims, hB hs'.inv'.builder, ⟨a1, b2, b3, b4, b5, b6, b7, b8, b9, ⟨rfl, rfl⟩, ⟨rfl, rfl⟩, ⟨rfl, rfl⟩, a13,
      .inr ⟨rfl, rfl, rfl⟩, a15⟩⟩
  have hU : Builder.UsedEq m1.b.d (configOf ops' outs') m.o.outSysRef m.o.cmdSysRef m.o.deltaCmdSysRef m.o.extInputMeas
      m1.o.outSysRef m1.o.cmdSysRef m1.o.deltaCmdSysRef m1.o.extInputMeas := by
    rw [hd]
    have g := hc.settings
    refine ⟨fun k a hk ha hu => ?_, fun k a hk ha hu => ?_, fun k a hk ha hu => ?_, fun k e hk he hu => ?_⟩
    · rw [hs'.inv.opt.yRef a k ha hk, hs.inv.opt.yRef a k ha hk]
      exact hc.yRef k a hk ha fun h0 => hu ((g.wY k a hk ha).trans h0)
    · rw [hs'.inv.opt.uRef a k ha hk, hs.inv.opt.uRef a k ha hk]
      exact hc.uRef k a hk ha fun h0 => hu ((g.wU k a hk ha).trans h0)
    · rw [hs'.inv.opt.duRef a k ha hk, hs.inv.opt.duRef a k ha hk]
      obtain ⟨i, hi, hik, hw⟩ := hu
      exact hc.duRef k a hk ha ⟨i, hi, hik, fun h0 => hw ((g.wDu i a hi ha).trans h0)⟩
    · rw [hs'.inv.opt.dist e k he hk, hs.inv.opt.dist e k he hk]
      refine hc.dist k e hk he ?_
      rcases hu with ⟨a, ha, hu⟩ | ⟨a, ha, hu⟩
      · exact .inl ⟨a, ha, fun h0 => hu ((g.Bd a e ha he).trans h0)⟩
      · exact .inr ⟨a, ha, fun h0 => hu ((g.Dd a e ha he).trans h0)⟩
  have hG := hs'.get.used hU hs'.inv.builder.repr (by rw [hd]; exact hph)
  have hfin : Solved d { configOf ops' outs' with
        yRef := (configOf ops outs).yRef, uRef := (configOf ops outs).uRef
        duRef := (configOf ops outs).duRef, dist := (configOf ops outs).dist }
      x0 u0 st' obj' none { m1 with o := o1 } { m1' with o := o2 } o2.result call' :=
    ⟨hs'.valid, hI0, hI1, hG, ⟨hs'.call.n, hs'.call.m, hs'.call.P, hs'.call.A, hs'.call.q, hs'.call.l, hs'.call.u,
      hs'.call.settings, hs'.call.warm⟩, rfl, rfl⟩
  exact (hs.agree hc.settings).same_problem hfin

/-! ### C123: the violations -/

/-- x+ = x + u, y = x; the outputs and the increments are weighted, the inputs are not, and there is no disturbance model. -/
def c123Ops : List (LOp ℚ) := [plant1 1 1, .setObjectiveWeights (cmat 1 2 1) (cmat 1 2 0) (cmat 1 2 1)]

/-- what its setters return -/
def c123Outs : List (LOut ℚ) := c123Ops.map fun _ => .bool true

/-- measured state 3, everything else 0, except the input reference and the disturbance of the first step -/
def c123Signals (u v : Flt ℚ) : Doubles ℚ where
  state _ := .fin 3
  command _ := .fin 0
  yRef _ _ := .fin 0
  uRef k _ := if k = 0 then u else .fin 0
  duRef _ _ := .fin 0
  dist k _ := if k = 0 then v else .fin 0

theorem c123_configured : ∃ m, Configured (dims1 2 2) c123Ops c123Outs m := by
  obtain ⟨m, _, _, _, h⟩ := dims1_asked (ph := 2) (ch := 2) (by omega) (by omega) (by omega) (by omega) (ops := c123Ops)
    (by accepts_tac [c123Ops]) 3 0
  exact ⟨m, h.toConfigured⟩

/-- The two signals play no role. -/
theorem c123_signals_unused (u v u' v' : Flt ℚ) :
    (c123Signals u v).AgreeUsed (dims1 2 2) (configOf c123Ops c123Outs) (c123Signals u' v') := by
  refine ⟨fun _ _ => rfl, fun _ _ => rfl, fun _ _ _ _ _ => rfl, ?_, fun _ _ _ _ _ => rfl, ?_⟩
  · intro k a hk ha h
    exfalso
    revert h
    unfold uUsed
    config_simp [c123Ops, c123Outs]
  · intro k e hk he h
    exfalso
    revert h
    unfold distUsed
    config_simp [c123Ops, c123Outs]

private theorem c123_noInf {u v : Flt ℚ} (hu : u = .nan ∨ ∃ x, u = .fin x) (hv : v = .nan ∨ ∃ x, v = .fin x) :
    (c123Signals u v).NoInfinity (dims1 2 2) := by
  refine ⟨fun _ _ => .inr ⟨_, rfl⟩, fun _ _ => .inr ⟨_, rfl⟩, fun _ _ _ _ => .inr ⟨_, rfl⟩, fun k _ _ _ => ?_,
    fun _ _ _ _ => .inr ⟨_, rfl⟩, fun k _ _ _ => ?_⟩
  · show (if k = 0 then u else .fin 0) = _ ∨ _
    split_ifs with h
    · simpa [c123Signals, h] using hu
    · exact .inr ⟨0, by simp [c123Signals, h]⟩
  · show (if k = 0 then v else .fin 0) = _ ∨ _
    split_ifs with h
    · simpa [c123Signals, h] using hv
    · exact .inr ⟨0, by simp [c123Signals, h]⟩

private theorem c123_zero : (c123Signals (.fin 0) (.fin 0)).NoInfinity (dims1 2 2) := c123_noInf (.inr ⟨0, rfl⟩) (.inr ⟨0, rfl⟩)

/-- with numbers, the linear cost of the first step is a number -/
private theorem c123_number {m : LMpc ℚ} {p : FltProblem ℚ} (h : Posed (dims1 2 2) c123Ops c123Outs (c123Signals (.fin 0) (.fin 0)) m p) :
    p.q.get 2 ≠ .nan := by
  have := (c123_spread h c123_zero).1 1 0 (by decide) (by decide)
  intro h0
  rcases this.1 h0 with ⟨_, _, h1⟩ | ⟨_, _, h1⟩ | ⟨_, _, _, h1⟩
  · cases h1
  · cases h1
  · cases h1

/-- C123 is violated: an input reference of NaN ("don't care"), its weight being zero, changes the problem. -/
theorem c123_nan_reference_violated : ¬ C123Claim ℚ (fun d s => s.NoInfinity d) := by
  intro hc
  obtain ⟨m, hm⟩ := c123_configured
  obtain ⟨p, hp⟩ := c123_total hm (c123Signals (.fin 0) (.fin 0))
  obtain ⟨p', hp'⟩ := c123_total hm (c123Signals .nan (.fin 0))
  have hs : (c123Signals .nan (.fin 0)).NoInfinity (dims1 2 2) := c123_noInf (.inl rfl) (.inr ⟨0, rfl⟩)
  have e := (hc _ _ _ _ _ _ _ _ hp hp' c123_zero hs (c123_signals_unused _ _ _ _)).q 2 (by decide)
  have h1 := ((c123_spread hp' hs).1 1 0 (by decide) (by decide)).2 (.inr (.inl ⟨0, by decide, rfl⟩))
  exact c123_number hp (e.symm.trans h1)

/-- C123 is violated without any NaN among the signals: an infinite input reference of weight zero changes the problem (zero
times infinity is NaN). -/
theorem c123_infinite_reference_violated : ¬ C123Claim ℚ (fun d s => NoNaN d s) := by
  intro hc
  obtain ⟨m, hm⟩ := c123_configured
  obtain ⟨p, hp⟩ := c123_total hm (c123Signals (.fin 0) (.fin 0))
  obtain ⟨p', hp'⟩ := c123_total hm (c123Signals (.num .posInf) (.fin 0))
  have nn : ∀ e : Ext ℚ, NoNaN (dims1 2 2) (c123Signals (.num e) (.fin 0)) := by
    intro e
    refine ⟨fun _ _ => Flt.fin_ne_nan _, fun _ _ => Flt.fin_ne_nan _, fun _ _ _ _ => Flt.fin_ne_nan _, fun k _ _ _ => ?_,
      fun _ _ _ _ => Flt.fin_ne_nan _, fun k _ _ _ => ?_⟩
    · show (if k = 0 then Flt.num e else .fin 0) ≠ _
      split_ifs
      · exact Flt.num_ne_nan _
      · exact Flt.fin_ne_nan _
    · show (if k = 0 then Flt.fin 0 else .fin 0) ≠ _
      split_ifs <;> exact Flt.fin_ne_nan _
  have e := (hc _ _ _ _ _ _ _ _ hp hp' (nn (.fin 0)) (nn .posInf) (c123_signals_unused _ _ _ _)).q 2 (by decide)
  have h1 := c123_infinite_unweighted hp' (k := 0) (a := 0) (by decide)
    (.inr ⟨by decide, by config_simp [c123Ops, c123Outs], .inl rfl⟩) (e := 0) (by decide)
  exact c123_number hp (e.symm.trans h1)

/-- C123 is violated with references which are numbers: a measured disturbance of NaN, there being no disturbance model, changes
the problem, and makes the constraints of the plant unsatisfiable as numbers: the dynamics of its step ask for NaN. -/
theorem c123_disturbance_violated : ¬ C123Claim ℚ (fun d s => s.NoInfinity d ∧
    (∀ k a, k < d.ph → (a < d.ny → s.yRef k a ≠ .nan) ∧ (a < d.nu → s.uRef k a ≠ .nan ∧ s.duRef k a ≠ .nan))) := by
  intro hc
  obtain ⟨m, hm⟩ := c123_configured
  obtain ⟨p, hp⟩ := c123_total hm (c123Signals (.fin 0) (.fin 0))
  obtain ⟨p', hp'⟩ := c123_total hm (c123Signals (.fin 0) .nan)
  have hs : (c123Signals (.fin 0) .nan).NoInfinity (dims1 2 2) := c123_noInf (.inr ⟨0, rfl⟩) (.inl rfl)
  have nn : ∀ v : Flt ℚ, ∀ k a, k < (dims1 2 2).ph → (a < (dims1 2 2).ny → (c123Signals (.fin 0) v).yRef k a ≠ .nan) ∧
      (a < (dims1 2 2).nu → (c123Signals (.fin 0) v).uRef k a ≠ .nan ∧ (c123Signals (.fin 0) v).duRef k a ≠ .nan) := by
    intro v k a _
    refine ⟨fun _ => Flt.fin_ne_nan _, fun _ => ⟨?_, Flt.fin_ne_nan _⟩⟩
    show (if k = 0 then Flt.fin 0 else .fin 0) ≠ _
    split_ifs <;> exact Flt.fin_ne_nan _
  have e := (hc _ _ _ _ _ _ _ _ hp hp' ⟨c123_zero, nn _⟩ ⟨hs, nn _⟩ (c123_signals_unused _ _ _ _)).l 2 (by decide)
  have h1 := ((c123_spread hp' hs).2.2.2.2.1 0 0 (by decide) (by decide)).2 ⟨0, by decide, rfl⟩
  have h0 : p.l.get 2 ≠ .nan := by
    intro h0
    obtain ⟨_, _, h2⟩ := ((c123_spread hp c123_zero).2.2.2.2.1 0 0 (by decide) (by decide)).1 h0
    cases h2
  exact h0 (e.symm.trans h1)

/-- Non-vacuity of the spread: a missing (NaN) output reference at the second step and a missing measurement of the state. -/
example : ∃ (m : LMpc ℚ) (p : FltProblem ℚ), Posed sampleDims sampleOps sampleOuts
    { Doubles.ofNumbers (configOf sampleOps sampleOuts) (fun _ => 1) (fun _ => 0) with
      state := fun a => if a = 0 then .nan else .fin 1
      yRef := fun k _ => if k = 1 then .nan else .fin 1 } m p ∧
    p.q.get 6 = .nan ∧ p.q.get 7 = .nan ∧ p.q.get 8 = .nan ∧ p.q.get 3 ≠ .nan ∧ p.l.get 0 = .nan ∧ p.l.get 1 ≠ .nan := by
  obtain ⟨m, _, _, _, h⟩ := sample_asked 1 0 none
  obtain ⟨p, hp⟩ := c123_total h.toConfigured { Doubles.ofNumbers (configOf sampleOps sampleOuts) (fun _ => 1) (fun _ => 0) with
      state := fun a => if a = 0 then .nan else .fin 1
      yRef := fun k _ => if k = 1 then .nan else .fin 1 }
  have hs : Doubles.NoInfinity sampleDims { Doubles.ofNumbers (configOf sampleOps sampleOuts) (fun _ => 1) (fun _ => 0) with
      state := fun a => if a = 0 then Flt.nan else .fin 1
      yRef := fun k _ => if k = 1 then Flt.nan else .fin 1 } := by
    refine ⟨fun a _ => ?_, fun _ _ => .inr ⟨_, rfl⟩, fun k _ _ _ => ?_, fun _ _ _ _ => .inr ⟨_, rfl⟩,
      fun _ _ _ _ => .inr ⟨_, rfl⟩, fun _ _ _ _ => .inr ⟨_, rfl⟩⟩
    · dsimp only
      split_ifs
      · exact .inl rfl
      · exact .inr ⟨_, rfl⟩
    · dsimp only
      split_ifs
      · exact .inl rfl
      · exact .inr ⟨_, rfl⟩
  obtain ⟨c1, -, c3, -⟩ := c123_spread hp hs
  refine ⟨m, p, hp, (c1 2 0 (by decide) (by decide)).2 (.inl ⟨0, by decide, rfl⟩),
    (c1 2 1 (by decide) (by decide)).2 (.inl ⟨0, by decide, rfl⟩), (c1 2 2 (by decide) (by decide)).2 (.inl ⟨0, by decide, rfl⟩),
    fun h0 => ?_, (c3 0 (by decide)).2 rfl, fun h0 => ?_⟩
  · rcases (c1 1 0 (by decide) (by decide)).1 h0 with ⟨_, _, h1⟩ | ⟨_, _, h1⟩ | ⟨_, _, _, h1⟩
    · cases h1
    · cases h1
    · cases h1
  · have := (c3 1 (by decide)).1 h0
    cases this

/-- Non-vacuity: a history which sets another input reference where the inputs are not weighted. -/
example : ∃ (m m' m1 m1' : LMpc ℚ) (r r' : LResult ℚ) (call call' : OsqpCall ℚ),
    Asked (dims1 2 2) c123Ops c123Outs (cvec 1 3) (cvec 1 0) (.answered 1 0 none) m m' r call ∧
    Asked (dims1 2 2) (c123Ops ++ [.setReferencesSlice (cvec 1 0) (cvec 1 7) (cvec 1 0) HorizonSlice.all])
      (c123Outs ++ [.bool true]) (cvec 1 3) (cvec 1 0) (.answered 1 0 none) m1 m1' r' call' ∧
    (configOf c123Ops c123Outs).AgreeUsed (dims1 2 2)
      (configOf (c123Ops ++ [.setReferencesSlice (cvec 1 0) (cvec 1 7) (cvec 1 0) HorizonSlice.all]) (c123Outs ++ [.bool true])) ∧
    (configOf (c123Ops ++ [.setReferencesSlice (cvec 1 0) (cvec 1 7) (cvec 1 0) HorizonSlice.all]) (c123Outs ++ [.bool true])).uRef
      0 0 ≠ (configOf c123Ops c123Outs).uRef 0 0 := by
  obtain ⟨m, m', r, call, h⟩ := dims1_asked (ph := 2) (ch := 2) (by omega) (by omega) (by omega) (by omega) (ops := c123Ops)
    (by accepts_tac [c123Ops]) 3 0
  obtain ⟨m1, m1', r', call', h'⟩ := dims1_asked (ph := 2) (ch := 2) (by omega) (by omega) (by omega) (by omega)
    (ops := c123Ops ++ [.setReferencesSlice (cvec 1 0) (cvec 1 7) (cvec 1 0) HorizonSlice.all])
    (by accepts_tac [c123Ops]) 3 0
  refine ⟨m, m', m1, m1', r, r', call, call', h, h', ⟨?_, ?_, ?_, ?_, ?_⟩, ?_⟩
  · constructor <;> intros <;> config_simp [c123Ops, c123Outs]
  · intros; config_simp [c123Ops, c123Outs]
  · intro k a _ _ hu
    exfalso; revert hu; unfold uUsed
    config_simp [c123Ops, c123Outs]
  · intros; config_simp [c123Ops, c123Outs]
  · intros; config_simp [c123Ops, c123Outs]
  · config_simp [c123Ops, c123Outs]

end Mpc.Props
