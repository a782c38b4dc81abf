import Mathlib.Data.Rat.Floor
import Verif.Model.Rounding
import Verif.Model.Tolerance
import Verif.Props.NlFeasible
import Verif.Props.NlFunctions

/-
C108: the tolerances of the constraints of the nonlinear controller. The user writes the calls `ops`; the controller works with
`ops.map (NlCall.narrow R.rnd)`, every tolerance having been converted to a `float` (`R = Rounding.binary 24`).
-/
namespace Mpc.Props
open Mpc Exec
set_option linter.unusedSectionVars false

section
variable {K : Type} [Field K] [LinearOrder K] [IsStrictOrderedRing K]
variable {d : Dims} {dyn : Bool} {ops : List (NlCall d K)} {outs : List (NlOut K)} {m m' : NlMpc d K} {x0 u0 : Vec K}
  {cs : List (NlCallback K)} {oc : NlOutcome K} {r : LResult K} {call : NlSolverCall K} {R : Rounding K}

/-- The user's constraints hold at the sequences of `z`, the inequality values exceeding `tol` by at most `slack tol`, the
equality values exceeding `tol` in magnitude by at most `slack tol`: `tol` is the tolerance written in the last call which set
the function. -/
def HoldsWithin (ops : List (NlCall d K)) (slack : K → K) (x0 z : Vec K) : Prop :=
  let X : Traj (d.ph + 1) d.nx K := NlSpec.codeStates d (NlSpec.stScale ops) x0.get z.get
  let U : Traj (d.ph + 1) d.nu K := NlSpec.inputs d (NlSpec.inScale ops) z.get
  (∀ F tol, NlSpec.last NlSpec.ineqConOf ops = some (F, tol) →
    ∀ i, F X (NlSpec.outputs (NlSpec.last NlSpec.outputOf ops) X U) U (z.get (NlSpec.slackIx d)) i ≤ tol + slack tol) ∧
  (∀ F tol, NlSpec.last NlSpec.eqConOf ops = some (F, tol) → ∀ i, |F X U i| ≤ tol + slack tol)

/-- C108 as claimed: the tolerance of the feasibility flag, and the one given to the solver, is the number the user passes. -/
def C108Claim (K : Type) [Field K] [LinearOrder K] [IsStrictOrderedRing K] (R : Rounding K) : Prop :=
  ∀ (d : Dims) (dyn : Bool) (ops : List (NlCall d K)) (outs : List (NlOut K)) (x0 u0 : Vec K) (cs : List (NlCallback K))
    (z : Vec K) (value : Ext K) (code : Int) (m m' : NlMpc d K) (r : LResult K) (call : NlSolverCall K),
    NlAsked d dyn (ops.map (NlCall.narrow R.rnd)) outs x0 u0 cs (.answered z value code false) m m' r call →
    (r.is_feasible = true ↔ HoldsWithin ops (fun _ => 0) x0 z) ∧ call.groups = ops.filterMap NlSpec.groupOf

/-! what a history of converted calls configures -/

theorem last_narrow {α : Type} (f : NlCall d K → Option α) (g : Option α → Option α) (float : K → K) (hn : g none = none)
    (ho : ∀ a b, g (Option.or a b) = Option.or (g a) (g b)) (hf : ∀ op, f (NlCall.narrow float op) = g (f op)) :
    NlSpec.last f (ops.map (NlCall.narrow float)) = g (NlSpec.last f ops) := by
  induction ops with
  | nil => exact hn.symm
  | cons op l ih => rw [List.map_cons, NlSpec.last, NlSpec.last, ih, hf, ho]

theorem last_narrow_same {α : Type} (f : NlCall d K → Option α) (float : K → K)
    (hf : ∀ op, f (NlCall.narrow float op) = f op) :
    NlSpec.last f (ops.map (NlCall.narrow float)) = NlSpec.last f ops :=
  last_narrow f id float rfl (fun _ _ => rfl) hf

theorem map_or {α : Type} (g : α → α) (a b : Option α) : (Option.or a b).map g = Option.or (a.map g) (b.map g) := by
  cases a <;> rfl

theorem ineq_narrow (float : K → K) : NlSpec.last NlSpec.ineqConOf (ops.map (NlCall.narrow float))
    = (NlSpec.last NlSpec.ineqConOf ops).map fun p => (p.1, float p.2) :=
  last_narrow _ (Option.map fun p => (p.1, float p.2)) float rfl (map_or _) fun op => by cases op <;> rfl

theorem eq_narrow (float : K → K) : NlSpec.last NlSpec.eqConOf (ops.map (NlCall.narrow float))
    = (NlSpec.last NlSpec.eqConOf ops).map fun p => (p.1, float p.2) :=
  last_narrow _ (Option.map fun p => (p.1, float p.2)) float rfl (map_or _) fun op => by cases op <;> rfl

theorem output_narrow (float : K → K) : NlSpec.last NlSpec.outputOf (ops.map (NlCall.narrow float))
    = NlSpec.last NlSpec.outputOf ops := last_narrow_same _ float fun op => by cases op <;> rfl

theorem inScale_narrow (float : K → K) : NlSpec.inScale (ops.map (NlCall.narrow float)) = NlSpec.inScale ops := by
  unfold NlSpec.inScale
  rw [last_narrow_same _ float fun op => by cases op <;> rfl]

theorem stScale_narrow (float : K → K) : NlSpec.stScale (ops.map (NlCall.narrow float)) = NlSpec.stScale ops := by
  unfold NlSpec.stScale
  rw [last_narrow_same _ float fun op => by cases op <;> rfl]

/-- C108, what the flag is: the constraints hold within the tolerances converted to `float`. -/
theorem c108_flag_partial {z : Vec K} {value : Ext K} {code : Int}
    (h : NlAsked d dyn (ops.map (NlCall.narrow R.rnd)) outs x0 u0 cs (.answered z value code false) m m' r call) :
    r.is_feasible = true ↔ HoldsWithin ops (fun tol => R.rnd tol - tol) x0 z := by
  rw [c43_api_flag h rfl _ _ rfl rfl, ineq_narrow, eq_narrow, output_narrow, inScale_narrow, stScale_narrow]
  unfold HoldsWithin
  refine and_congr ?_ ?_
  · cases NlSpec.last NlSpec.ineqConOf ops with
    | none => simp
    | some p =>
      simp only [Option.map_some, Option.some.injEq, Prod.mk.injEq, add_sub_cancel]
      constructor
      · rintro h F tol ⟨rfl, rfl⟩ i; exact h _ _ ⟨rfl, rfl⟩ i
      · rintro h F tol ⟨rfl, rfl⟩ i; exact h _ _ rfl i
  · cases NlSpec.last NlSpec.eqConOf ops with
    | none => simp
    | some p =>
      simp only [Option.map_some, Option.some.injEq, Prod.mk.injEq, add_sub_cancel]
      constructor
      · rintro h F tol ⟨rfl, rfl⟩ i; exact h _ _ ⟨rfl, rfl⟩ i
      · rintro h F tol ⟨rfl, rfl⟩ i; exact h _ _ rfl i

theorem HoldsWithin.mono {s t : K → K} {z : Vec K} (h : HoldsWithin ops s x0 z) (hst : ∀ tol, s tol ≤ t tol) :
    HoldsWithin ops t x0 z :=
  ⟨fun F tol e i => (h.1 F tol e i).trans (by linarith [hst tol]), fun F tol e i => (h.2 F tol e i).trans (by linarith [hst tol])⟩

/-- C108, how far off the flag can be: a result flagged feasible satisfies the constraints within `tol + eps |tol|`, and one
which satisfies them within `tol - eps |tol|` is flagged feasible (`eps = 2^-24` for a `float`). -/
theorem c108_nearly_partial {z : Vec K} {value : Ext K} {code : Int}
    (h : NlAsked d dyn (ops.map (NlCall.narrow R.rnd)) outs x0 u0 cs (.answered z value code false) m m' r call) :
    (r.is_feasible = true → HoldsWithin ops (fun tol => R.eps * |tol|) x0 z) ∧
    (HoldsWithin ops (fun tol => -(R.eps * |tol|)) x0 z → r.is_feasible = true) := by
  rw [c108_flag_partial h]
  refine ⟨fun h => h.mono fun tol => ?_, fun h => h.mono fun tol => ?_⟩
  · exact (le_abs_self _).trans (R.err tol)
  · linarith [(abs_le.1 (R.err tol)).1]

/-- C108, the tolerances given to the solver are the converted ones: the written one up to `eps |tol|`, and of the right number
of entries. -/
theorem c108_solver_partial (h : NlAsked d dyn (ops.map (NlCall.narrow R.rnd)) outs x0 u0 cs oc m m' r call) :
    List.Forall₂ (fun g g' => g.kind = g'.kind ∧ g.tol.size = g'.tol.size ∧
        ∀ i, |g.tol.get i - g'.tol.get i| ≤ R.eps * |g'.tol.get i|)
      call.groups (ops.filterMap NlSpec.groupOf) := by
  rw [c49_groups_partial h]
  clear h
  induction ops with
  | nil => exact .nil
  | cons op l ih =>
    rw [List.map_cons]
    cases op <;> first
      | exact ih
      | (rename_i F tol acc
         cases acc
         · exact ih
         · exact .cons ⟨rfl, rfl, fun _ => R.err tol⟩ ih)

/-- C108 holds when all tolerances are `float`s. -/
theorem c108_representable_partial {z : Vec K} {value : Ext K} {code : Int}
    (h : NlAsked d dyn (ops.map (NlCall.narrow R.rnd)) outs x0 u0 cs (.answered z value code false) m m' r call)
    (hr : ∀ op ∈ ops, NlCall.narrow R.rnd op = op) :
    (r.is_feasible = true ↔ HoldsWithin ops (fun _ => 0) x0 z) ∧ call.groups = ops.filterMap NlSpec.groupOf := by
  have e : ops.map (NlCall.narrow R.rnd) = ops := by
    conv_rhs => rw [← List.map_id ops]
    exact List.map_congr_left hr
  rw [e] at h
  refine ⟨?_, c49_groups_partial h⟩
  rw [c43_api_flag h rfl _ _ rfl rfl]
  simp only [HoldsWithin, add_zero]

end

/-! ### the default tolerance -/

/-- IEEE single precision -/
abbrev single : Rounding ℚ := Rounding.binary ℚ 24 (by norm_num)

/-- `1e-10` as a `float` -/
theorem single_default : single.rnd (1 / 10 ^ 10) = 14411519 / 2 ^ 57 := by
  show roundBits 24 (1 / 10 ^ 10 : ℚ) = _
  have hl : Int.log 2 |(1 / 10 ^ 10 : ℚ)| = -34 := by
    rw [abs_of_pos (by norm_num)]
    apply le_antisymm
    · rw [← Int.lt_add_one_iff, ← Int.lt_zpow_iff_log_lt (by norm_num) (by norm_num)]
      norm_num
    · rw [← Int.zpow_le_iff_le_log (by norm_num) (by norm_num)]
      norm_num
  have hu : ulp 24 (1 / 10 ^ 10 : ℚ) = 1 / 2 ^ 57 := by
    unfold ulp; rw [hl]; norm_num
  have hf : ⌊(1 / 10 ^ 10 / (1 / 2 ^ 57) : ℚ)⌋ = 14411518 := by
    rw [Int.floor_eq_iff]; norm_num
  unfold roundBits
  rw [hu]
  unfold roundEven
  rw [hf, if_neg (by norm_num), if_pos (by norm_num)]
  norm_num

/-- an inequality constraint on the first predicted state and its tolerance -/
def opsTol (tol : ℚ) : List (NlCall dN ℚ) := [.setIneqConFunction (fun X _ _ _ _ => X 1 0) tol true]

/-- an answer of the solver at which the constraint is violated by `1e-10` as a `float` -/
def zTol : Vec ℚ := ⟨9, fun _ => 14411519 / 2 ^ 57⟩

theorem tol_asked (tol : ℚ) : ∃ outs m m' r call, NlAsked dN false ((opsTol tol).map (NlCall.narrow single.rnd)) outs (nvec 2 fun _ => 0)
    (nvec 1 fun _ => 0) [] (.answered zTol (.fin 0) 1 false) m m' r call := by
  refine nlAsked_exists dN_ok (by decide) (by decide) (fun _ => 0) ?_ ?_
  · intro op h
    simp only [opsTol, List.map_cons, List.map_nil, NlCall.narrow, List.mem_append, List.mem_cons, List.not_mem_nil,
      or_false] at h
    rcases h with rfl | rfl
    · trivial
    · exact ⟨rfl, rfl, by simp, rfl⟩
  · intro p op q e
    have := admFrom_split (d := dN) (dyn := false) (pre := []) (l := (opsTol tol).map (NlCall.narrow single.rnd) ++
      [.optimize (nvec 2 fun _ => 0) (nvec 1 fun _ => 0) [] (.answered zTol (.fin 0) 1 false) (fun _ => 0)]) ?_ p op q e
    · exact this
    · simp only [opsTol, List.map_cons, List.map_nil, NlCall.narrow, List.cons_append, List.nil_append, AdmFrom,
        NlSpec.Admissible, and_true]

theorem tol_state (tol : ℚ) (x0 : Nat → ℚ) : NlSpec.codeStates dN (NlSpec.stScale (opsTol tol)) x0 zTol.get 1 0 = 14411519 / 2 ^ 57 := by
  simp [NlSpec.codeStates, NlSpec.stScale, NlSpec.last, opsTol, NlSpec.stScaleOf, zTol]

/-- C108 is violated: with the default tolerance `1e-10` a constraint violated by more than `1e-10` is flagged feasible. -/
theorem c108_tolerance_violated : ¬ C108Claim ℚ single := by
  intro hc
  obtain ⟨outs, m, m', r, call, h⟩ := tol_asked (1 / 10 ^ 10)
  have h1 := (hc _ _ _ _ _ _ _ _ _ _ _ _ _ _ h).1
  have h2 : r.is_feasible = true := by
    rw [c108_flag_partial h]
    refine ⟨?_, ?_⟩
    · rintro F tol e i
      simp only [opsTol, NlSpec.last, NlSpec.ineqConOf, Option.none_or, Option.some.injEq, Prod.mk.injEq] at e
      obtain ⟨rfl, rfl⟩ := e
      show NlSpec.codeStates dN (NlSpec.stScale (opsTol (1 / 10 ^ 10))) _ zTol.get 1 0 ≤ _ + (single.rnd (1 / 10 ^ 10) - 1 / 10 ^ 10)
      rw [single_default, tol_state]
      norm_num
    · rintro F tol e
      simp [opsTol, NlSpec.last, NlSpec.eqConOf] at e
  have h3 := (h1.1 h2).1 _ _ rfl 0
  dsimp only at h3
  rw [tol_state] at h3
  norm_num at h3

/-- non-vacuity of the partial theorems: the sample above; here a tolerance which is a `float`, a decision vector which satisfies
the constraint, and the flag -/
example : ∃ outs m m' r call, NlAsked dN false ((opsTol (1 / 1024)).map (NlCall.narrow single.rnd)) outs (nvec 2 fun _ => 0)
    (nvec 1 fun _ => 0) [] (.answered zTol (.fin 0) 1 false) m m' r call ∧
    (∀ op ∈ opsTol (1 / 1024), NlCall.narrow single.rnd op = op) ∧ r.is_feasible = true := by
  obtain ⟨outs, m, m', r, call, h⟩ := tol_asked (1 / 1024)
  have hr : ∀ op ∈ opsTol (1 / 1024), NlCall.narrow single.rnd op = op := by
    intro op hop
    obtain rfl := List.mem_singleton.1 hop
    have : single.rnd (1 / 1024) = 1 / 1024 := by
      have := roundBits_fixed (K := ℚ) (p := 24) (by norm_num) (n := 1) (k := -10) (by norm_num)
      norm_num at this
      show roundBits 24 (1 / 1024 : ℚ) = _
      norm_num
      exact this
    simp only [NlCall.narrow, this]
  refine ⟨outs, m, m', r, call, h, hr, ((c108_representable_partial h hr).1).2 ⟨?_, ?_⟩⟩
  · rintro F tol e i
    simp only [opsTol, NlSpec.last, NlSpec.ineqConOf, Option.none_or, Option.some.injEq, Prod.mk.injEq] at e
    obtain ⟨rfl, rfl⟩ := e
    show NlSpec.codeStates dN (NlSpec.stScale (opsTol (1 / 1024))) _ zTol.get 1 0 ≤ _ + 0
    rw [tol_state]
    norm_num
  · rintro F tol e
    simp [opsTol, NlSpec.last, NlSpec.eqConOf] at e

end Mpc.Props
