import Mathlib.Tactic.IntervalCases
import Mathlib.Tactic.Linarith
import Verif.Spec.NlOptimal
import Verif.Spec.Optimal
import Verif.Props.NlLimits
import Verif.Props.NlCallbacks

/-
C64, C65: the nonlinear controller's bounds as limits on physical quantities, and what an exact solution of the solver's
problem is worth.
-/
namespace Mpc.Props
open Mpc Exec
open Mpc.Spec (within IsBest)
set_option linter.unusedSectionVars false

section
variable {d : Dims} {K : Type} [Field K] [LinearOrder K] [IsStrictOrderedRing K]
variable {dyn : Bool} {ops : List (NlCall d K)} {outs : List (NlOut K)} {m m' : NlMpc d K} {x0 u0 : Vec K}
  {cs cs' : List (NlCallback K)} {oc : NlOutcome K} {r : LResult K} {call : NlSolverCall K}

/-! ### C64 -/

/-- C64 as stated: when the solver answers within the box it was given, the returned command is within the input bounds set
last for the first input, and the reported states are within the state bounds set last for them. -/
def C64Claim (K : Type) [Field K] [LinearOrder K] [IsStrictOrderedRing K] : Prop :=
  ∀ (d : Dims) dyn (ops : List (NlCall d K)) outs x0 u0 cs z value code m m' r call,
    NlAsked d dyn ops outs x0 u0 cs (.answered z value code false) m m' r call → (∀ op ∈ ops, NlSpec.UsableCall op) →
    (∀ p, p < z.size → within (call.lb.get p) (call.ub.get p) (z.get p)) →
    (∀ b, b < d.nu → within (NlSpec.inputLimits ops outs 0 b).1 (NlSpec.inputLimits ops outs 0 b).2 (r.cmd.get b)) ∧
    ∀ k a, k < d.ph → a < d.nx →
      within (NlSpec.stateLimits ops outs k a).1 (NlSpec.stateLimits ops outs k a).2 (m'.o.seqState.get (k + 1) a)

/-- C64, partial: it is the quotient of the command and the input scaling which respects the bounds, and likewise for the
states. Missing: the bounds are not scaled (`c64_scaled_violated`). -/
theorem c64_quotient_partial {z : Vec K} {value : Ext K} {code : Int}
    (h : NlAsked d dyn ops outs x0 u0 cs (.answered z value code false) m m' r call) (hu : ∀ op ∈ ops, NlSpec.UsableCall op)
    (hz : ∀ p, p < z.size → within (call.lb.get p) (call.ub.get p) (z.get p)) :
    (∀ k b, k ≤ d.ph → b < d.nu → NlSpec.inScale ops b ≠ 0 →
      within (NlSpec.inputLimits ops outs (min k (d.ch - 1)) b).1 (NlSpec.inputLimits ops outs (min k (d.ch - 1)) b).2
        (m'.o.seqInput.get k b / NlSpec.inScale ops b)) ∧
    (∀ b, b < d.nu → r.cmd.get b = m'.o.seqInput.get 0 b) ∧
    ∀ k a, k < d.ph → a < d.nx → NlSpec.stScale ops a ≠ 0 →
      within (NlSpec.stateLimits ops outs k a).1 (NlSpec.stateLimits ops outs k a).2
        (m'.o.seqState.get (k + 1) a / NlSpec.stScale ops a) := by
  obtain ⟨-, -, hx, hi⟩ := c44_boxes_partial h hu
  obtain ⟨-, hS, hI, -, hc, -⟩ := c58_sequences_partial h rfl
  have hsz : z.size = d.ph * d.nx + d.nu * d.ch + 1 := by
    obtain ⟨junk, hf, -⟩ := h.ask
    exact hf.2.2.2
  have hcp := h.hor.ch_pos
  refine ⟨fun k b hk hb hs => ?_, hc, fun k a hk ha hs => ?_⟩
  · have hj : min k (d.ch - 1) < d.ch := by omega
    have e := hi _ b hj hb
    have hlt := block_lt (n := d.ch) hb hj
    have hbox := hz (NlSpec.inputIx d (min k (d.ch - 1)) b) (by rw [hsz]; unfold NlSpec.inputIx; rw [Nat.mul_comm d.nu]; omega)
    unfold NlSpec.inputLimits
    rw [← e, hI k b hk hb]
    unfold NlSpec.inputAt
    rw [mul_div_cancel_left₀ _ hs]
    exact hbox
  · have e := hx k a hk ha
    have hlt := block_lt (n := d.ph) ha hk
    have hbox := hz (NlSpec.stateIx d k a) (by rw [hsz]; unfold NlSpec.stateIx; omega)
    unfold NlSpec.stateLimits
    rw [← e, hS (k + 1) a (by omega) ha, if_neg (by omega)]
    unfold NlSpec.stateAt
    rw [if_neg (by omega), Nat.add_sub_cancel, mul_div_cancel_left₀ _ hs]
    exact hbox

/-- C64 in full when the scalings in force are one; moreover all reported inputs respect the bounds of their step. -/
theorem c64_unscaled_partial {z : Vec K} {value : Ext K} {code : Int}
    (h : NlAsked d dyn ops outs x0 u0 cs (.answered z value code false) m m' r call) (hu : ∀ op ∈ ops, NlSpec.UsableCall op)
    (hz : ∀ p, p < z.size → within (call.lb.get p) (call.ub.get p) (z.get p))
    (h1 : ∀ b, b < d.nu → NlSpec.inScale ops b = 1) (h2 : ∀ a, a < d.nx → NlSpec.stScale ops a = 1) :
    (∀ b, b < d.nu → within (NlSpec.inputLimits ops outs 0 b).1 (NlSpec.inputLimits ops outs 0 b).2 (r.cmd.get b)) ∧
    (∀ k b, k ≤ d.ph → b < d.nu →
      within (NlSpec.inputLimits ops outs (min k (d.ch - 1)) b).1 (NlSpec.inputLimits ops outs (min k (d.ch - 1)) b).2
        (m'.o.seqInput.get k b)) ∧
    ∀ k a, k < d.ph → a < d.nx →
      within (NlSpec.stateLimits ops outs k a).1 (NlSpec.stateLimits ops outs k a).2 (m'.o.seqState.get (k + 1) a) := by
  obtain ⟨hi, hc, hx⟩ := c64_quotient_partial h hu hz
  have hi' : ∀ k b, k ≤ d.ph → b < d.nu →
      within (NlSpec.inputLimits ops outs (min k (d.ch - 1)) b).1 (NlSpec.inputLimits ops outs (min k (d.ch - 1)) b).2
        (m'.o.seqInput.get k b) := fun k b hk hb => by
    have := hi k b hk hb (by rw [h1 b hb]; exact one_ne_zero)
    rwa [h1 b hb, div_one] at this
  refine ⟨fun b hb => ?_, hi', fun k a hk ha => ?_⟩
  · have := hi' 0 b (by omega) hb
    rw [Nat.zero_min] at this
    rw [hc b hb]
    exact this
  · have := hx k a hk ha (by rw [h2 a ha]; exact one_ne_zero)
    rwa [h2 a ha, div_one] at this

/-! ### C65 -/

/-- C65 as stated: when the solver answers with an exact solution of its problem, the returned command is the first input of
a best plan which the history allows. (Hard constraints; each function set once and accepted by the solver.) -/
def C65Claim (K : Type) [Field K] [LinearOrder K] [IsStrictOrderedRing K] : Prop :=
  ∀ (d : Dims) dyn (ops : List (NlCall d K)) outs x0 u0 cs z value code m m' r call,
    NlAsked d dyn ops outs x0 u0 cs (.answered z value code false) m m' r call →
    (∀ op ∈ ops, NlSpec.UsableCall op) → NlSpec.SetOnce ops →
    (∀ b, b < d.nu → 0 < NlSpec.inScale ops b) → (∀ a, a < d.nx → 0 < NlSpec.stScale ops a) →
    ∀ f, NlSpec.last NlSpec.objectiveOf ops = some f → ∀ s, InSolver d dyn ops outs m x0 cs s → NlSpec.SolverBest m.o s call z →
    ∃ p, IsBest (NlSpec.Allowed ops outs x0.get) (NlSpec.planCost f ops) p ∧ ∀ b : Fin d.nu, r.cmd.get b = p.U 0 b

/-- the plan of a decision vector -/
def planOf (ops : List (NlCall d K)) (x0 z : Vec K) : NlSpec.Plan d K where
  X := NlSpec.codeStates d (NlSpec.stScale ops) x0.get z.get
  U := NlSpec.inputs d (NlSpec.inScale ops) z.get
  e := z.get (NlSpec.slackIx d)

/-- the decision vector of a plan (unit state scaling) -/
def vecOf (ops : List (NlCall d K)) (p : NlSpec.Plan d K) : Vec K :=
  ⟨d.ph * d.nx + d.nu * d.ch + 1, fun i =>
    if i < d.ph * d.nx then NlSpec.entry p.X (i / d.nx + 1) (i % d.nx)
    else if i < d.ph * d.nx + d.ch * d.nu then
      NlSpec.entry p.U ((i - d.ph * d.nx) / d.nu) ((i - d.ph * d.nx) % d.nu) / NlSpec.inScale ops ((i - d.ph * d.nx) % d.nu)
    else p.e⟩

theorem planOf_vecOf {p : NlSpec.Plan d K} (hch : 0 < d.ch) (hle : d.ch ≤ d.ph) (h1 : ∀ b, b < d.nu → NlSpec.inScale ops b ≠ 0)
    (h2 : ∀ a, a < d.nx → NlSpec.stScale ops a = 1) (hs : ∀ a : Fin d.nx, p.X 0 a = x0.get a)
    (hb : ∀ (k j : Fin (d.ph + 1)) (b : Fin d.nu), (j : Nat) = min (k : Nat) (d.ch - 1) → p.U k b = p.U j b) :
    planOf ops x0 (vecOf ops p) = p := by
  obtain ⟨X, U, e⟩ := p
  have eX : NlSpec.codeStates d (NlSpec.stScale ops) x0.get (vecOf ops ⟨X, U, e⟩).get = X := by
    funext k a
    unfold NlSpec.codeStates
    by_cases h0 : (k : Nat) = 0
    · rw [if_pos h0, h2 a a.2, one_mul, ← hs a]
      rw [show k = 0 from Fin.ext h0]
    · rw [if_neg h0, h2 a a.2, one_mul]
      have hlt := block_lt (n := d.ph) a.2 (show (k : Nat) - 1 < d.ph by omega)
      have hm : ((k : Nat) - 1) * d.nx + a < d.ph * d.nx := by omega
      have e1 : (((k : Nat) - 1) * d.nx + a) / d.nx = k - 1 := by
        rw [Nat.mul_comm, Nat.mul_add_div (by omega), Nat.div_eq_of_lt a.2, Nat.add_zero]
      have e2 : (((k : Nat) - 1) * d.nx + a) % d.nx = a := by rw [Nat.mul_add_mod_self_right, Nat.mod_eq_of_lt a.2]
      simp only [vecOf, NlSpec.stateIx, hm, if_true, e1, e2, NlSpec.entry]
      rw [dif_pos ⟨by omega, a.2⟩]
      congr 1
      exact Fin.ext (by show (k : Nat) - 1 + 1 = k; omega)
  have eU : NlSpec.inputs d (NlSpec.inScale ops) (vecOf ops ⟨X, U, e⟩).get = U := by
    funext k b
    unfold NlSpec.inputs NlSpec.inputAt
    have hj : min (k : Nat) (d.ch - 1) < d.ch := by omega
    have hlt := block_lt (n := d.ch) b.2 hj
    have e1 : (min (k : Nat) (d.ch - 1) * d.nu + b) / d.nu = min (k : Nat) (d.ch - 1) := by
      rw [Nat.mul_comm, Nat.mul_add_div (by omega), Nat.div_eq_of_lt b.2, Nat.add_zero]
    have e2 : (min (k : Nat) (d.ch - 1) * d.nu + b) % d.nu = b := by rw [Nat.mul_add_mod_self_right, Nat.mod_eq_of_lt b.2]
    simp only [vecOf, NlSpec.inputIx]
    rw [if_neg (by omega), if_pos (by omega), Nat.add_sub_cancel_left, e1, e2, mul_div_cancel₀ _ (h1 b b.2)]
    unfold NlSpec.entry
    rw [dif_pos ⟨by omega, b.2⟩]
    exact (hb k ⟨min (k : Nat) (d.ch - 1), by omega⟩ b rfl).symm
  have ee : (vecOf ops ⟨X, U, e⟩).get (NlSpec.slackIx d) = e := by
    simp only [vecOf, NlSpec.slackIx]
    rw [if_neg (by omega), if_neg (by omega)]
  unfold planOf
  rw [eX, eU, ee]

/-- the group of a kind which is set once -/
theorem SetOnce.group_unique (ho : NlSpec.SetOnce ops) {g g' : NlGroup K} (hg : g ∈ ops.filterMap NlSpec.groupOf)
    (hg' : g' ∈ ops.filterMap NlSpec.groupOf) (hk : g.kind = g'.kind) : g = g' :=
  List.inj_on_of_nodup_map ho.once hg hg' hk


theorem last_some_of_mem {β α : Type} {f : β → Option α} {l : List β} {b : β} (hb : b ∈ l) (h : (f b).isSome) :
    ∃ a, NlSpec.last f l = some a := by
  induction l with
  | nil => cases hb
  | cons c l ih =>
    unfold NlSpec.last
    rcases List.mem_cons.1 hb with rfl | hb
    · cases NlSpec.last f l with
      | some a => exact ⟨a, rfl⟩
      | none => obtain ⟨a, ha⟩ := Option.isSome_iff_exists.1 h; exact ⟨a, ha⟩
    · obtain ⟨a, ha⟩ := ih hb
      exact ⟨a, by rw [ha]; rfl⟩

/-- the groups of a history in which each function was set once, by kind -/
theorem groups_of_once (ho : NlSpec.SetOnce ops) (g : NlGroup K) :
    g ∈ ops.filterMap NlSpec.groupOf ↔
      (∃ F tol, NlSpec.last NlSpec.modelTolOf ops = some (F, tol) ∧ g = ⟨.dynamics, ⟨d.ph * d.nx, fun _ => tol⟩⟩) ∨
      (∃ F tol, NlSpec.last NlSpec.ineqConOf ops = some (F, tol) ∧ g = ⟨.userIneq, ⟨d.ineq, fun _ => tol⟩⟩) ∨
      (∃ F tol, NlSpec.last NlSpec.eqConOf ops = some (F, tol) ∧ g = ⟨.userEq, ⟨d.eq, fun _ => tol⟩⟩) := by
  have hm : ∀ F tol, NlSpec.last NlSpec.modelTolOf ops = some (F, tol) →
      (⟨.dynamics, ⟨d.ph * d.nx, fun _ => tol⟩⟩ : NlGroup K) ∈ ops.filterMap NlSpec.groupOf := by
    intro F tol h
    obtain ⟨op, h1, h2⟩ := last_mem h
    refine List.mem_filterMap.2 ⟨op, h1, ?_⟩
    have := ho.accepted op h1
    cases op <;> simp only [NlSpec.modelTolOf, reduceCtorEq, Option.some.injEq, Prod.mk.injEq] at h2
    rename_i acc
    obtain ⟨-, rfl⟩ := h2
    cases acc with
    | true => rfl
    | false => exact absurd rfl this
  have hi : ∀ F tol, NlSpec.last NlSpec.ineqConOf ops = some (F, tol) →
      (⟨.userIneq, ⟨d.ineq, fun _ => tol⟩⟩ : NlGroup K) ∈ ops.filterMap NlSpec.groupOf := by
    intro F tol h
    obtain ⟨op, h1, h2⟩ := last_mem h
    refine List.mem_filterMap.2 ⟨op, h1, ?_⟩
    have := ho.accepted op h1
    cases op <;> simp only [NlSpec.ineqConOf, reduceCtorEq, Option.some.injEq, Prod.mk.injEq] at h2
    rename_i acc
    obtain ⟨-, rfl⟩ := h2
    cases acc with
    | true => rfl
    | false => exact absurd rfl this
  have he : ∀ F tol, NlSpec.last NlSpec.eqConOf ops = some (F, tol) →
      (⟨.userEq, ⟨d.eq, fun _ => tol⟩⟩ : NlGroup K) ∈ ops.filterMap NlSpec.groupOf := by
    intro F tol h
    obtain ⟨op, h1, h2⟩ := last_mem h
    refine List.mem_filterMap.2 ⟨op, h1, ?_⟩
    have := ho.accepted op h1
    cases op <;> simp only [NlSpec.eqConOf, reduceCtorEq, Option.some.injEq, Prod.mk.injEq] at h2
    rename_i acc
    obtain ⟨-, rfl⟩ := h2
    cases acc with
    | true => rfl
    | false => exact absurd rfl this
  constructor
  · intro hg
    obtain ⟨op, h1, h2⟩ := List.mem_filterMap.1 hg
    cases op with
    | setStateSpaceFunction F tol acc =>
      obtain ⟨⟨F', tol'⟩, h3⟩ := last_some_of_mem (f := NlSpec.modelTolOf) h1 rfl
      cases acc with
      | false => cases h2
      | true =>
        obtain rfl := Option.some.inj h2
        exact .inl ⟨F', tol', h3, SetOnce.group_unique ho hg (hm F' tol' h3) rfl⟩
    | setIneqConFunction F tol acc =>
      obtain ⟨⟨F', tol'⟩, h3⟩ := last_some_of_mem (f := NlSpec.ineqConOf) h1 rfl
      cases acc with
      | false => cases h2
      | true =>
        obtain rfl := Option.some.inj h2
        exact .inr (.inl ⟨F', tol', h3, SetOnce.group_unique ho hg (hi F' tol' h3) rfl⟩)
    | setEqConFunction F tol acc =>
      obtain ⟨⟨F', tol'⟩, h3⟩ := last_some_of_mem (f := NlSpec.eqConOf) h1 rfl
      cases acc with
      | false => cases h2
      | true =>
        obtain rfl := Option.some.inj h2
        exact .inr (.inr ⟨F', tol', h3, SetOnce.group_unique ho hg (he F' tol' h3) rfl⟩)
    | _ => cases h2
  · rintro (⟨F, tol, h, rfl⟩ | ⟨F, tol, h, rfl⟩ | ⟨F, tol, h, rfl⟩)
    · exact hm F tol h
    · exact hi F tol h
    · exact he F tol h

theorem model_of_tol {F : FVec d.nx K → FVec d.nu K → Nat → FVec d.nx K} {tol : K}
    (h : NlSpec.last NlSpec.modelTolOf ops = some (F, tol)) : NlSpec.last NlSpec.modelOf ops = some F := by
  have e : (NlSpec.modelOf : NlCall d K → _) = fun op => (NlSpec.modelTolOf op).map Prod.fst := by
    funext op; cases op <;> rfl
  rw [e, last_map, h]
  rfl

theorem within_fin_zero {v : K} : within (Ext.fin 0) (Ext.fin 0) v ↔ v = 0 :=
  ⟨fun h => le_antisymm h.2 h.1, fun h => by subst h; exact ⟨le_refl (0 : K), le_refl (0 : K)⟩⟩

/-- scalings for which the solver's problem is the configured one: unit state scaling, and inputs which are scaled are not
bounded -/
structure ScalesOk (ops : List (NlCall d K)) (outs : List (NlOut K)) : Prop where
  state : ∀ a, a < d.nx → NlSpec.stScale ops a = 1
  input : ∀ b, b < d.nu → NlSpec.inScale ops b ≠ 0
  free : ∀ b, b < d.nu → NlSpec.inScale ops b ≠ 1 → ∀ j, j < d.ch → NlSpec.inputLimits ops outs j b = (.negInf, .posInf)

/-- `SolverFeasible` with the values of the evaluations -/
structure EvalFeasible (s : NlState d K) (call : NlSolverCall K) (z : Vec K) : Prop where
  size : z.size = d.ph * d.nx + d.nu * d.ch + 1
  box : ∀ p, p < z.size → within (call.lb.get p) (call.ub.get p) (z.get p)
  groups : ∀ g ∈ call.groups, ∀ i, i < g.tol.size →
    match g.kind with
    | .userIneq => ∀ junk r s', s.evalIneq z junk = .ok (r, s') → r.value.get i ≤ g.tol.get i
    | .userEq => ∀ junk r s', s.evalEq z junk = .ok (r, s') → |r.value.get i| ≤ g.tol.get i
    | .dynamics => ∀ b junk r s', s.evalDyn z b junk = .ok (r, s') → |r.value.get i| ≤ g.tol.get i

/-- the solver reads what the evaluations return -/
theorem served_iff {call : NlSolverCall K} (hgr : call.groups = ops.filterMap NlSpec.groupOf) {m2 : NlMpc d K} {s : NlState d K}
    (hin : InSolver d dyn ops outs m2 x0 cs' s) {z : Vec K} (hz : z.size = d.ph * d.nx + d.nu * d.ch + 1) :
    NlSpec.SolverFeasible m2.o s call z ↔ EvalFeasible s call z := by
  have hdim : ∀ g ∈ call.groups, g.tol.size = g.kind.dim d := by
    intro g hg
    rw [hgr, ← groups_after hin.toNlRan.len] at hg
    exact (NlMpc.after_bound ops outs).dim _ hg
  constructor
  · intro hf
    refine ⟨hf.size, hf.box, fun g hg p hp => ?_⟩
    obtain ⟨i, hi, hgi⟩ := List.getElem_of_mem hg
    have hgi : call.groups[i]? = some g := by rw [List.getElem?_eq_getElem hi, hgi]
    have hd := hdim g hg
    have key : ∀ w junk, ∃ r s', s.evalCon z w junk g.kind = .ok (r, s') ∧ ∃ v : Vec K, NlSpec.Satisfies g v ∧
        v.get p = r.value.get p := by
      intro w junk
      obtain ⟨r, s', b, e1, e2, -, e4, -⟩ := hin.con (by rw [← hgr]; exact hgi) hz w junk
      exact ⟨r, s', e1, b.value, hf.groups i g hgi w junk b s' e2, e4 p (by rw [← hd]; exact hp)⟩
    obtain ⟨kind, tol⟩ := g
    cases kind with
    | userIneq =>
      intro junk r s' e
      obtain ⟨r2, s2, e1, v, hv, ev⟩ := key false junk
      have e1 : s.evalIneq z junk = _ := e1
      rw [e] at e1
      cases e1
      rw [← ev]
      exact hv p hp
    | userEq =>
      intro junk r s' e
      obtain ⟨r2, s2, e1, v, hv, ev⟩ := key false junk
      have e1 : s.evalEq z junk = _ := e1
      rw [e] at e1
      cases e1
      rw [← ev]
      exact hv p hp
    | dynamics =>
      intro w junk r s' e
      obtain ⟨r2, s2, e1, v, hv, ev⟩ := key w junk
      have e1 : s.evalDyn z w junk = _ := e1
      rw [e] at e1
      cases e1
      rw [← ev]
      exact hv p hp
  · intro hf
    refine ⟨hf.size, hf.box, fun i g hgi w junk b s' e p hp => ?_⟩
    have hg := List.mem_of_getElem? hgi
    obtain ⟨r, s2, b2, e1, e2, -, e4, -⟩ := hin.con (by rw [← hgr]; exact hgi) hz w junk
    rw [e] at e2
    cases e2
    have e5 := e4 p (by rw [← hdim g hg]; exact hp)
    have := hf.groups g hg p hp
    obtain ⟨kind, tol⟩ := g
    cases kind with
    | userIneq => exact (le_of_eq e5).trans (this junk r s' e1)
    | userEq => exact (le_of_eq (congrArg abs e5)).trans (this junk r s' e1)
    | dynamics => exact (le_of_eq (congrArg abs e5)).trans (this w junk r s' e1)

/-- what the solver reads of the objective is the cost of the plan -/
theorem served_cost (ho : NlSpec.SetOnce ops) {f : ObjFn d K} (hf : NlSpec.last NlSpec.objectiveOf ops = some f) {m2 : NlMpc d K}
    {s : NlState d K} (hin : InSolver d dyn ops outs m2 x0 cs' s) {z : Vec K} (hz : z.size = d.ph * d.nx + d.nu * d.ch + 1)
    (w : Bool) (junk : Nat → K) :
    ∃ G s', NlMpc.serve m2.o s (.obj z w junk) = .ok (some (.obj (NlSpec.planCost f ops (planOf ops x0 z)) G), s') := by
  have hb : ∃ f, NlCall.setObjectiveFunction f true ∈ ops := by
    have : ∀ l : List (NlCall d K), (NlSpec.last NlSpec.objectiveOf l).isSome = true → ∃ f acc, NlCall.setObjectiveFunction f acc ∈ l := by
      intro l
      induction l with
      | nil => intro h; cases h
      | cons a l ih =>
        intro h
        rw [NlSpec.last] at h
        cases hl : NlSpec.last NlSpec.objectiveOf l with
        | some g =>
          obtain ⟨f, acc, hm⟩ := ih (by rw [hl]; rfl)
          exact ⟨f, acc, .tail _ hm⟩
        | none =>
          rw [hl, Option.none_or] at h
          cases a with
          | setObjectiveFunction f acc => exact ⟨f, acc, .head _⟩
          | _ => cases h
    obtain ⟨g, acc, hm⟩ := this ops (by rw [hf]; rfl)
    cases acc with
    | true => exact ⟨g, hm⟩
    | false => exact absurd rfl (ho.accepted _ hm)
  obtain ⟨G, s', e, -⟩ := c80_objective hin hb hf z hz w junk (planOf ops x0 z).X (planOf ops x0 z).U _ rfl rfl rfl
  exact ⟨G, s', e⟩

/-- the solver's feasible vectors are those of the allowed plans -/
theorem solverFeasible_iff (h : NlAsked d dyn ops outs x0 u0 cs oc m m' r call) (hu : ∀ op ∈ ops, NlSpec.UsableCall op)
    (ho : NlSpec.SetOnce ops) (hs : ScalesOk ops outs) {m2 : NlMpc d K} {s : NlState d K}
    (hin : InSolver d dyn ops outs m2 x0 cs' s) {z : Vec K} (hz : z.size = d.ph * d.nx + d.nu * d.ch + 1) :
    NlSpec.SolverFeasible m2.o s call z ↔ NlSpec.Allowed ops outs x0.get (planOf ops x0 z) := by
  obtain ⟨-, -, hx, hi⟩ := c44_boxes_partial h hu
  obtain ⟨hsl, hsu⟩ := c44_slack_partial h hu
  have hgr := c49_groups_partial h
  have hcp := h.hor.ch_pos
  have hle := h.hor.ch_le
  rw [served_iff hgr hin hz]
  obtain ⟨-, fi, fe, fm⟩ := c49_last_functions s hin z hz (planOf ops x0 z).X (planOf ops x0 z).U _ rfl rfl rfl
  have hst : ∀ (k : Fin d.ph) (a : Fin d.nx), (planOf ops x0 z).X k.succ a = z.get (NlSpec.stateIx d k a) := by
    intro k a
    show NlSpec.codeStates d (NlSpec.stScale ops) x0.get z.get k.succ a = _
    unfold NlSpec.codeStates
    rw [if_neg (by simp), hs.state a a.2, one_mul]
    simp
  have hin' : ∀ (j : Fin (d.ph + 1)) (b : Fin d.nu), (j : Nat) < d.ch →
      (within (NlSpec.inputLimits ops outs j b).1 (NlSpec.inputLimits ops outs j b).2 (z.get (NlSpec.inputIx d j b)) ↔
       within (NlSpec.inputLimits ops outs j b).1 (NlSpec.inputLimits ops outs j b).2 ((planOf ops x0 z).U j b)) := by
    intro j b hj
    by_cases h1 : NlSpec.inScale ops b = 1
    · show _ ↔ within _ _ (NlSpec.inputAt _ _ _ _ _)
      unfold NlSpec.inputAt
      rw [h1, one_mul, show min (j : Nat) (d.ch - 1) = j by omega]
    · rw [hs.free b b.2 h1 j hj]
      exact ⟨fun _ => ⟨trivial, trivial⟩, fun _ => ⟨trivial, trivial⟩⟩
  constructor
  · intro hf
    refine ⟨fun a => ?_, fun k j b hj => ?_, fun k a => ?_, fun j b hj => ?_, ?_, fun F tol hF k a => ?_, fun F tol hF i => ?_,
      fun F tol hF i => ?_⟩
    · show NlSpec.codeStates d (NlSpec.stScale ops) x0.get z.get 0 a = _
      unfold NlSpec.codeStates
      rw [if_pos (by simp), hs.state a a.2, one_mul]
    · show NlSpec.inputAt _ _ _ _ _ = NlSpec.inputAt _ _ _ _ _
      unfold NlSpec.inputAt
      rw [hj, show min (min (k : Nat) (d.ch - 1)) (d.ch - 1) = min (k : Nat) (d.ch - 1) by omega]
    · have hlt := block_lt (n := d.ph) a.2 k.2
      have := hf.box (NlSpec.stateIx d k a) (by rw [hz]; unfold NlSpec.stateIx; omega)
      have e := hx k a k.2 a.2
      unfold NlSpec.stateLimits
      rw [← e, hst]
      exact this
    · have hlt := block_lt (n := d.ch) b.2 hj
      have := hf.box (NlSpec.inputIx d j b) (by rw [hz]; unfold NlSpec.inputIx; rw [Nat.mul_comm d.nu]; omega)
      have e := hi j b hj b.2
      refine (hin' j b hj).1 ?_
      unfold NlSpec.inputLimits
      rw [← e]
      exact this
    · have := hf.box (NlSpec.slackIx d) (by rw [hz]; unfold NlSpec.slackIx; rw [Nat.mul_comm d.nu]; omega)
      rw [hsl, hsu] at this
      exact within_fin_zero.1 this
    · obtain ⟨r, s', e1, e2⟩ := fm F (model_of_tol hF) false (fun _ => 0)
      have hlt := block_lt (n := d.ph) a.2 k.2
      have := hf.groups ⟨.dynamics, ⟨d.ph * d.nx, fun _ => tol⟩⟩ (by rw [hgr]; exact (groups_of_once ho _).2 (.inl ⟨F, tol, hF, rfl⟩)) (k * d.nx + a)
        (by show (k : Nat) * d.nx + a < d.ph * d.nx; omega) false (fun _ => 0) r s' e1
      rw [e2 k a] at this
      unfold NlSpec.residual at this
      unfold NlSpec.modelError
      rw [hs.state a a.2, div_one] at this
      split_ifs at this ⊢ with hc
      · rw [abs_sub_comm]; exact this
      · exact this
    · obtain ⟨r, s', e1, e2⟩ := fi F tol hF (fun _ => 0)
      have := hf.groups ⟨.userIneq, ⟨d.ineq, fun _ => tol⟩⟩ (by rw [hgr]; exact (groups_of_once ho _).2 (.inr (.inl ⟨F, tol, hF, rfl⟩))) i i.2 (fun _ => 0) r s' e1
      rw [e2 i] at this
      exact this
    · obtain ⟨r, s', e1, e2⟩ := fe F tol hF (fun _ => 0)
      have := hf.groups ⟨.userEq, ⟨d.eq, fun _ => tol⟩⟩ (by rw [hgr]; exact (groups_of_once ho _).2 (.inr (.inr ⟨F, tol, hF, rfl⟩))) i i.2 (fun _ => 0) r s' e1
      rw [e2 i] at this
      exact this
  · intro hp
    refine ⟨hz, fun p hpz => ?_, fun g hg i hii => ?_⟩
    · rw [hz] at hpz
      by_cases h1 : p < d.ph * d.nx
      · have hnx : 0 < d.nx := by rcases Nat.eq_zero_or_pos d.nx with h0 | h0; · rw [h0] at h1; omega
                                  · exact h0
        have hk : p / d.nx < d.ph := Nat.div_lt_of_lt_mul (by rw [Nat.mul_comm]; exact h1)
        have ha : p % d.nx < d.nx := Nat.mod_lt _ hnx
        have ep : NlSpec.stateIx d (p / d.nx) (p % d.nx) = p := by
          unfold NlSpec.stateIx; rw [Nat.mul_comm]; exact Nat.div_add_mod p d.nx
        have := hp.states ⟨_, hk⟩ ⟨_, ha⟩
        have e := hx _ _ hk ha
        rw [hst] at this
        unfold NlSpec.stateLimits at this
        dsimp only at this
        rw [← e, ep] at this
        exact this
      · by_cases h2 : p < d.ph * d.nx + d.ch * d.nu
        · obtain ⟨q, rfl⟩ := Nat.exists_eq_add_of_le (Nat.le_of_not_lt h1)
          have h2 : q < d.ch * d.nu := by omega
          have hnu : 0 < d.nu := by rcases Nat.eq_zero_or_pos d.nu with h0 | h0; · rw [h0] at h2; omega
                                    · exact h0
          have hk : q / d.nu < d.ch := Nat.div_lt_of_lt_mul (by rw [Nat.mul_comm]; exact h2)
          have ha : q % d.nu < d.nu := Nat.mod_lt _ hnu
          have ep : NlSpec.inputIx d (q / d.nu) (q % d.nu) = d.ph * d.nx + q := by
            unfold NlSpec.inputIx; rw [Nat.mul_comm (q / d.nu), Nat.div_add_mod q d.nu]
          have := (hin' ⟨q / d.nu, by omega⟩ ⟨_, ha⟩ hk).2 (hp.inputs ⟨q / d.nu, by omega⟩ ⟨_, ha⟩ hk)
          have e := hi _ _ hk ha
          unfold NlSpec.inputLimits at this
          dsimp only at this
          rw [← e, ep] at this
          exact this
        · have ep : p = NlSpec.slackIx d := by unfold NlSpec.slackIx; rw [Nat.mul_comm d.nu] at hpz; omega
          rw [ep, hsl, hsu]
          exact within_fin_zero.2 hp.hard
    · rw [hgr] at hg
      rcases (groups_of_once ho g).1 hg with ⟨F, tol, hF, rfl⟩ | ⟨F, tol, hF, rfl⟩ | ⟨F, tol, hF, rfl⟩
      · dsimp only at hii ⊢
        intro b junk r s' e1
        obtain ⟨r2, s2, e2, e3⟩ := fm F (model_of_tol hF) b junk
        rw [e1] at e2
        cases e2
        have hnx : 0 < d.nx := by rcases Nat.eq_zero_or_pos d.nx with h0 | h0; · rw [h0] at hii; omega
                                  · exact h0
        have hk : i / d.nx < d.ph := Nat.div_lt_of_lt_mul (by rw [Nat.mul_comm]; exact hii)
        have ha : i % d.nx < d.nx := Nat.mod_lt _ hnx
        have ep : (i / d.nx) * d.nx + i % d.nx = i := by rw [Nat.mul_comm]; exact Nat.div_add_mod i d.nx
        have := hp.model F tol hF ⟨_, hk⟩ ⟨_, ha⟩
        have e4 := e3 ⟨_, hk⟩ ⟨_, ha⟩
        dsimp only at e4
        rw [ep] at e4
        rw [e4]
        unfold NlSpec.modelError at this
        unfold NlSpec.residual
        dsimp only at this ⊢
        rw [hs.state _ ha, div_one]
        split_ifs at this ⊢ with hc
        · rw [abs_sub_comm]; exact this
        · exact this
      · dsimp only at hii ⊢
        intro junk r s' e1
        obtain ⟨r2, s2, e2, e3⟩ := fi F tol hF junk
        rw [e1] at e2
        cases e2
        rw [e3 ⟨i, hii⟩]
        exact hp.ineq F tol hF ⟨i, hii⟩
      · dsimp only at hii ⊢
        intro junk r s' e1
        obtain ⟨r2, s2, e2, e3⟩ := fe F tol hF junk
        rw [e1] at e2
        cases e2
        rw [e3 ⟨i, hii⟩]
        exact hp.eq F tol hF ⟨i, hii⟩

/-- C65 for unit state scaling and unscaled or unbounded inputs: when the solver answers with an exact solution of its problem,
the reported states and inputs are a best allowed plan, and its first input is the returned command; conversely the vector of
every best plan is an exact solution. (Missing: scaled states, and inputs both scaled and bounded, where the claim fails.) -/
theorem c65_optimal_partial {z : Vec K} {value : Ext K} {code : Int}
    (h : NlAsked d dyn ops outs x0 u0 cs (.answered z value code false) m m' r call) (hu : ∀ op ∈ ops, NlSpec.UsableCall op)
    (ho : NlSpec.SetOnce ops) (hs : ScalesOk ops outs) {f : ObjFn d K} (hf : NlSpec.last NlSpec.objectiveOf ops = some f)
    {s : NlState d K} (hin : InSolver d dyn ops outs m x0 cs' s) :
    let p : NlSpec.Plan d K :=
      ⟨fun k a => m'.o.seqState.get k a, fun k b => m'.o.seqInput.get k b, z.get (NlSpec.slackIx d)⟩
    (NlSpec.SolverBest m.o s call z ↔ IsBest (NlSpec.Allowed ops outs x0.get) (NlSpec.planCost f ops) p) ∧
    ∀ b : Fin d.nu, r.cmd.get b = p.U 0 b := by
  intro p
  have hz : z.size = d.ph * d.nx + d.nu * d.ch + 1 := by
    obtain ⟨junk, hf, -⟩ := h.ask
    exact hf.2.2.2
  obtain ⟨-, hS, hI, -, hc, -⟩ := c58_sequences_partial h rfl
  have ep : p = planOf ops x0 z := by
    show NlSpec.Plan.mk _ _ _ = NlSpec.Plan.mk _ _ _
    congr 1
    · funext k a
      rw [hS k a (by omega) a.2]
      unfold NlSpec.codeStates NlSpec.stateAt
      split_ifs <;> rfl
    · funext k b
      exact hI k b (by omega) b.2
  refine ⟨⟨fun hb => ?_, fun hb => ?_⟩, fun b => hc b b.2⟩
  · rw [ep]
    refine ⟨(solverFeasible_iff h hu ho hs hin hz).1 hb.feasible, fun q hq => ?_⟩
    have eq : planOf ops x0 (vecOf ops q) = q :=
      planOf_vecOf h.hor.ch_pos h.hor.ch_le hs.input hs.state hq.start hq.blocked
    obtain ⟨G1, s1, e1⟩ := served_cost ho hf hin hz false (fun _ => 0)
    obtain ⟨G2, s2, e2⟩ := served_cost ho hf hin (z := vecOf ops q) rfl false (fun _ => 0)
    have := hb.best (vecOf ops q) ((solverFeasible_iff h hu ho hs hin rfl).2 (by rw [eq]; exact hq)) _ _ _ _ _ _ _ _ _ _ e1 e2
    rw [eq] at this
    exact this
  · rw [ep] at hb
    refine ⟨(solverFeasible_iff h hu ho hs hin hz).2 hb.1, fun z' hz' w w' j j' v v' G G' s1 s2 e1 e2 => ?_⟩
    obtain ⟨G1, s1', e1'⟩ := served_cost ho hf hin hz w j
    obtain ⟨G2, s2', e2'⟩ := served_cost ho hf hin hz'.size w' j'
    rw [e1] at e1'
    rw [e2] at e2'
    cases e1'
    cases e2'
    exact hb.2 _ ((solverFeasible_iff h hu ho hs hin hz'.size).1 hz')

end

/-! ### witnesses -/

/-- inputs are scaled by 2 and bounded by -1 and 1; the larger the first input the better -/
def opsS : List (NlCall dN ℚ) :=
  [ .setInputScale (nvec 1 fun _ => 2),
    .setInputBounds ⟨1, 2, fun _ _ => .fin (-1)⟩ ⟨1, 2, fun _ _ => .fin 1⟩,
    .setObjectiveFunction (fun _ _ U _ => -U 0 0) true ]

/-- first decision input 1 -/
def zS : Vec ℚ := ⟨9, fun p => if p = 6 then 1 else 0⟩

theorem opsS_asked : ∃ m m' r call, NlAsked dN false opsS [.unit, .bool true, .bool true] (nvec 2 fun _ => 0) (nvec 1 fun _ => 0)
    [] (.answered zS (.fin (-2)) 1 false) m m' r call := by
  obtain ⟨outs, m, m', r, call, h⟩ := asked_of (ops := opsS) 0 0 (.answered zS (.fin (-2)) 1 false)
    (by rintro _ _ _ _ ⟨⟩; rfl) (by simp [opsS, NlSpec.CallFits, nvec]) (by simp [opsS, AdmFrom, NlSpec.Admissible])
  have hl := h.toNlRan.len
  have hok := h.toNlRan.outOk
  obtain ⟨a, b, c, rfl⟩ := List.length_eq_three.1 (show outs.length = 3 from hl)
  have e1 : a = .unit := hok (.setInputScale (nvec 1 fun _ => 2), a) (by simp [opsS])
  have e2 : b = .bool true := hok (.setInputBounds ⟨1, 2, fun _ _ => .fin (-1)⟩ ⟨1, 2, fun _ _ => .fin 1⟩, b) (by simp [opsS])
  have e3 : c = .bool true := hok (.setObjectiveFunction (fun _ _ U _ => -U 0 0) true, c) (by simp [opsS])
  subst e1 e2 e3
  exact ⟨m, m', r, call, h⟩

theorem opsS_usable : ∀ op ∈ opsS, NlSpec.UsableCall op := by
  intro op h
  simp only [opsS, List.mem_cons, List.not_mem_nil, or_false] at h
  rcases h with rfl | rfl | rfl <;> trivial

theorem opsS_limits (j : Nat) :
    NlSpec.inputLimits opsS [.unit, .bool true, .bool true] j 0 = (.fin (-1), .fin 1) := by
  simp [NlSpec.inputLimits, opsS, NlSpec.last, NlSpec.inputBox]

theorem opsS_free (k a : Nat) : NlSpec.stateLimits opsS [.unit, .bool true, .bool true] k a = (.negInf, .posInf) := by
  simp [NlSpec.stateLimits, opsS, NlSpec.last, NlSpec.stateBox]

/-- the answer is within the box the solver was given -/
theorem opsS_box {m m' r call} (h : NlAsked dN false opsS [.unit, .bool true, .bool true] (nvec 2 fun _ => 0) (nvec 1 fun _ => 0)
    [] (.answered zS (.fin (-2)) 1 false) m m' r call) :
    ∀ p, p < zS.size → within (call.lb.get p) (call.ub.get p) (zS.get p) := by
  obtain ⟨-, -, hx, hi⟩ := c44_boxes_partial h opsS_usable
  obtain ⟨hsl, hsu⟩ := c44_slack_partial h opsS_usable
  have hx' : ∀ k a, k < 3 → a < 2 → (call.lb.get (NlSpec.stateIx dN k a), call.ub.get (NlSpec.stateIx dN k a))
      = (.negInf, .posInf) := fun k a hk ha => (hx k a hk ha).trans (opsS_free k a)
  have hi' : ∀ j, j < 2 → (call.lb.get (NlSpec.inputIx dN j 0), call.ub.get (NlSpec.inputIx dN j 0))
      = (.fin (-1), .fin 1) := fun j hj => (hi j 0 hj (by decide)).trans (opsS_limits j)
  have free : ∀ k a, k < 3 → a < 2 → ∀ v, within (call.lb.get (NlSpec.stateIx dN k a)) (call.ub.get (NlSpec.stateIx dN k a)) v :=
    fun k a hk ha v => by
      have := Prod.mk.inj (hx' k a hk ha)
      rw [this.1, this.2]
      exact ⟨trivial, trivial⟩
  have unit : ∀ j, j < 2 → ∀ v : ℚ, -1 ≤ v → v ≤ 1 →
      within (call.lb.get (NlSpec.inputIx dN j 0)) (call.ub.get (NlSpec.inputIx dN j 0)) v := fun j hj v h1 h2 => by
    have := Prod.mk.inj (hi' j hj)
    rw [this.1, this.2]
    exact ⟨h1, h2⟩
  intro p hp
  change p < 9 at hp
  interval_cases p
  · exact free 0 0 (by decide) (by decide) _
  · exact free 0 1 (by decide) (by decide) _
  · exact free 1 0 (by decide) (by decide) _
  · exact free 1 1 (by decide) (by decide) _
  · exact free 2 0 (by decide) (by decide) _
  · exact free 2 1 (by decide) (by decide) _
  · exact unit 0 (by decide) _ (by norm_num [zS]) (by norm_num [zS])
  · exact unit 1 (by decide) _ (by norm_num [zS]) (by norm_num [zS])
  · show within (call.lb.get (NlSpec.slackIx dN)) (call.ub.get (NlSpec.slackIx dN)) _
    rw [hsl, hsu]
    exact within_fin_zero.2 rfl

theorem opsS_cmd {m m' r call} (h : NlAsked dN false opsS [.unit, .bool true, .bool true] (nvec 2 fun _ => 0) (nvec 1 fun _ => 0)
    [] (.answered zS (.fin (-2)) 1 false) m m' r call) : r.cmd.get 0 = 2 := by
  obtain ⟨-, -, hI, -, hc, -⟩ := c58_sequences_partial h rfl
  rw [hc 0 (by decide), hI 0 0 (by decide) (by decide)]
  simp [NlSpec.inputAt, NlSpec.inputIx, opsS, NlSpec.inScale, NlSpec.last, NlSpec.inScaleOf, nvec, zS]

/-- C64 is violated: with input scale 2 and inputs bounded by 1 the command 2 is returned. -/
theorem c64_scaled_violated : ¬ C64Claim ℚ := by
  intro hc
  obtain ⟨m, m', r, call, h⟩ := opsS_asked
  have h1 := ((hc _ _ _ _ _ _ _ _ _ _ _ _ _ _ h opsS_usable (opsS_box h)).1 0 (by decide)).2
  rw [opsS_limits, opsS_cmd h] at h1
  exact absurd (show (2 : ℚ) ≤ 1 from h1) (by norm_num)

theorem opsS_once : NlSpec.SetOnce opsS := by
  refine ⟨?_, ?_⟩
  · intro op h
    simp only [opsS, List.mem_cons, List.not_mem_nil, or_false] at h
    rcases h with rfl | rfl | rfl <;> simp [NlSpec.acceptedOf]
  · exact List.nodup_nil

/-- C65 is violated by the same history: the solver's optimum gives a command which no allowed plan contains. -/
theorem c65_scaled_violated : ¬ C65Claim ℚ := by
  intro hc
  obtain ⟨m, m', r, call, h⟩ := opsS_asked
  obtain ⟨s, hin⟩ := h.inSolver
  have hgr := c49_groups_partial h
  have hbest : NlSpec.SolverBest m.o s call zS := by
    refine ⟨⟨rfl, opsS_box h, fun i g hg => ?_⟩, fun z' hz' w w' j j' v v' G G' s1 s2 e1 e2 => ?_⟩
    · rw [hgr] at hg
      exact absurd (show g ∈ ([] : List (NlGroup ℚ)) from List.mem_of_getElem? hg) (List.not_mem_nil)
    · obtain ⟨_, _, e1'⟩ := served_cost opsS_once (f := fun _ _ U _ => -U 0 0) rfl hin (z := zS) rfl w j
      obtain ⟨_, _, e2'⟩ := served_cost opsS_once (f := fun _ _ U _ => -U 0 0) rfl hin hz'.size w' j'
      rw [e1] at e1'
      rw [e2] at e2'
      cases e1'
      cases e2'
      have hi := (c44_boxes_partial h opsS_usable).2.2.2 0 0 (by decide) (by decide)
      have hi := hi.trans (opsS_limits 0)
      have hb := (hz'.box (NlSpec.inputIx dN 0 0) (by rw [hz'.size]; decide)).2
      rw [(Prod.mk.inj hi).2] at hb
      have hb : z'.get 6 ≤ 1 := hb
      simp [NlSpec.planCost, planOf, NlSpec.inputs, NlSpec.inputAt, NlSpec.inputIx, opsS, NlSpec.inScale, NlSpec.last, NlSpec.inScaleOf, nvec, zS]
      linarith
  obtain ⟨p, ⟨hp, -⟩, hcmd⟩ := hc _ _ _ _ _ _ _ _ _ _ _ _ _ _ h opsS_usable opsS_once
    (by intro b _; simp [opsS, NlSpec.inScale, NlSpec.last, NlSpec.inScaleOf, nvec])
    (by intro a _; simp [opsS, NlSpec.stScale, NlSpec.last, NlSpec.stScaleOf]) _ rfl s hin hbest
  have h1 := (hp.inputs 0 0 (by decide)).2
  have h2 := hcmd 0
  rw [← h2] at h1
  have h3 : r.cmd.get ((0 : Fin dN.nu) : Nat) = 2 := opsS_cmd h
  rw [h3] at h1
  have := opsS_limits 0
  rw [show NlSpec.inputLimits opsS [.unit, .bool true, .bool true] ((0 : Fin (dN.ph + 1)) : Nat) ((0 : Fin dN.nu) : Nat)
    = (.fin (-1), .fin 1) from this] at h1
  exact absurd (show (2 : ℚ) ≤ 1 from h1) (by norm_num)

theorem length_four {α : Type} {l : List α} (h : l.length = 4) : ∃ a b c e, l = [a, b, c, e] := by
  cases l with
  | nil => simp at h
  | cons a l =>
    obtain ⟨b, c, e, rfl⟩ := List.length_eq_three.1 (show l.length = 3 by simpa using h)
    exact ⟨a, b, c, e, rfl⟩

/-- a model x+ = u, an inequality, and a state to reach -/
def opsO : List (NlCall dN ℚ) :=
  [ .setStateSpaceFunction (fun _ u _ _ => u 0) 0 true,
    .setObjectiveFunction (fun X _ _ _ => (X 3 0 - 1) * (X 3 0 - 1)) true,
    .setIneqConFunction (fun _ _ U _ _ => U 0 0 - 1) 0 true,
    .setInputScale (nvec 1 fun _ => 2) ]

/-- all states 1, all inputs 1/2 (times the scale 2) -/
def zO : Vec ℚ := ⟨9, fun p => if p < 6 then 1 else if p < 8 then 1 / 2 else 0⟩

/-- non-vacuity of C65: a history with model, objective, inequality and input scale, which meets all hypotheses, and an
answer of the solver which is an exact solution -/
example : ∃ outs m m' r call s, NlAsked dN false opsO outs (nvec 2 fun _ => 0) (nvec 1 fun _ => 0) []
      (.answered zO (.fin 0) 1 false) m m' r call ∧
    (∀ op ∈ opsO, NlSpec.UsableCall op) ∧ NlSpec.SetOnce opsO ∧ ScalesOk opsO outs ∧
    NlSpec.last NlSpec.objectiveOf opsO = some (fun X _ _ _ => (X 3 0 - 1) * (X 3 0 - 1)) ∧
    InSolver dN false opsO outs m (nvec 2 fun _ => 0) [] s ∧ NlSpec.SolverBest m.o s call zO := by
  obtain ⟨outs, m, m', r, call, h⟩ := asked_of (ops := opsO) 0 0 (.answered zO (.fin 0) 1 false)
    (by rintro _ _ _ _ ⟨⟩; rfl) (by simp [opsO, NlSpec.CallFits, nvec]) (by simp [opsO, AdmFrom, NlSpec.Admissible])
  obtain ⟨s, hin⟩ := h.inSolver
  have hu : ∀ op ∈ opsO, NlSpec.UsableCall op := by
    intro op h
    simp only [opsO, List.mem_cons, List.not_mem_nil, or_false] at h
    rcases h with rfl | rfl | rfl | rfl <;> trivial
  have ho : NlSpec.SetOnce opsO := by
    refine ⟨?_, ?_⟩
    · intro op h
      simp only [opsO, List.mem_cons, List.not_mem_nil, or_false] at h
      rcases h with rfl | rfl | rfl | rfl <;> simp [NlSpec.acceptedOf]
    · show [NlGroupKind.dynamics, NlGroupKind.userIneq].Nodup
      decide
  have hl := h.toNlRan.len
  obtain ⟨o1, o2, o3, o4, rfl⟩ := length_four (show outs.length = 4 from hl)
  have hlim : ∀ j b, NlSpec.inputLimits opsO [o1, o2, o3, o4] j b = (.negInf, .posInf) := by
    intro j b
    simp [NlSpec.inputLimits, opsO, NlSpec.last, NlSpec.inputBox]
  have hlim' : ∀ j b, NlSpec.stateLimits opsO [o1, o2, o3, o4] j b = (.negInf, .posInf) := by
    intro j b
    simp [NlSpec.stateLimits, opsO, NlSpec.last, NlSpec.stateBox]
  have hs : ScalesOk opsO [o1, o2, o3, o4] := by
    refine ⟨?_, ?_, fun b _ _ j _ => hlim j b⟩
    · intro a _; simp [opsO, NlSpec.stScale, NlSpec.last, NlSpec.stScaleOf]
    · intro b _; simp [opsO, NlSpec.inScale, NlSpec.last, NlSpec.inScaleOf, nvec]
  refine ⟨_, m, m', r, call, s, h, hu, ho, hs, rfl, hin, ?_⟩
  refine (c65_optimal_partial h hu ho hs rfl hin).1.2 ?_
  obtain ⟨-, hS, hI, -⟩ := c58_sequences_partial h rfl
  have hsc : NlSpec.stScale opsO = fun _ => 1 := by
    simp [opsO, NlSpec.stScale, NlSpec.last, NlSpec.stScaleOf]
  have hsi : NlSpec.inScale opsO = fun _ => 2 := by
    simp [opsO, NlSpec.inScale, NlSpec.last, NlSpec.inScaleOf, nvec]
  have eX : (fun (k : Fin (dN.ph + 1)) (a : Fin dN.nx) => m'.o.seqState.get k a) = fun (k : Fin (dN.ph + 1)) (_ : Fin dN.nx) => if (k : Nat) = 0 then (0 : ℚ) else 1 := by
    funext k a
    rw [hS k a (by omega) a.2, hsc]
    by_cases h0 : (k : Nat) = 0
    · simp [h0, nvec]
    · have ha : (a : Nat) < 2 := a.2
      have hk : (k : Nat) < 4 := k.2
      rw [if_neg h0, if_neg h0, NlSpec.stateAt, if_neg h0, one_mul, NlSpec.stateIx]
      show (if ((k : Nat) - 1) * 2 + a < 6 then (1 : ℚ) else _) = 1
      rw [if_pos (by omega)]
  have eU : (fun (k : Fin (dN.ph + 1)) (b : Fin dN.nu) => m'.o.seqInput.get k b) = fun _ _ => 1 := by
    funext k b
    have hb : (b : Nat) < 1 := b.2
    rw [hI k b (by omega) b.2, hsi, NlSpec.inputAt, NlSpec.inputIx]
    show 2 * (if 6 + (min (k : Nat) 1 * 1 + b) < 6 then (1 : ℚ) else if 6 + (min (k : Nat) 1 * 1 + b) < 8 then 1 / 2 else 0) = 1
    rw [if_neg (by omega), if_pos (by omega)]
    norm_num
  rw [eX, eU]
  refine ⟨⟨?_, ?_, ?_, ?_, ?_, ?_, ?_, ?_⟩, ?_⟩
  · intro a; simp [nvec]
  · intros; rfl
  · intro k a; rw [hlim']; exact ⟨trivial, trivial⟩
  · intro j b _; rw [hlim]; exact ⟨trivial, trivial⟩
  · rfl
  · intro F tol hF k a
    simp [opsO, NlSpec.last, NlSpec.modelTolOf] at hF
    obtain ⟨rfl, rfl⟩ := hF
    simp [NlSpec.modelError, opsO, NlSpec.last, NlSpec.samplingOf]
  · intro F tol hF i
    simp [opsO, NlSpec.last, NlSpec.ineqConOf] at hF
    obtain ⟨rfl, rfl⟩ := hF
    simp
  · intro F tol hF i
    simp [opsO, NlSpec.last, NlSpec.eqConOf] at hF
  · intro q _
    unfold NlSpec.planCost
    simp
    exact mul_self_nonneg _

end Mpc.Props
