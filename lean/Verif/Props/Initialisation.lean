import Verif.Model.Component

/-
C52: components before and after initialisation.
-/
namespace Mpc.Props
open Mpc Exec

/-- dimensions a component may work with: `ph` and `ch` positive -/
def dimsAllowed (d : Dims) : Prop := 0 < d.ph ∧ 0 < d.ch

/-- `initialize` arguments which must be accepted: no negative dimension, positive horizons -/
def argsValid (a : DimArgs) : Prop :=
  0 ≤ a.nx ∧ 0 ≤ a.nu ∧ 0 ≤ a.ndu ∧ 0 ≤ a.ny ∧ 0 < a.ph ∧ 0 < a.ch ∧ 0 ≤ a.ineq ∧ 0 ≤ a.eq

/-- the arguments fit in an `int` -/
def argsInt (a : DimArgs) : Prop :=
  ∀ x ∈ [a.nx, a.nu, a.ndu, a.ny, a.ph, a.ch, a.ineq, a.eq], -2 ^ 31 ≤ x ∧ x < (2 : Int) ^ 31

/-- the dimensions are the arguments -/
def dimsAre (d : Dims) (a : DimArgs) : Prop :=
  (d.nx : Int) = a.nx ∧ (d.nu : Int) = a.nu ∧ (d.ndu : Int) = a.ndu ∧ (d.ny : Int) = a.ny ∧ (d.ph : Int) = a.ph ∧
    (d.ch : Int) = a.ch ∧ (d.ineq : Int) = a.ineq ∧ (d.eq : Int) = a.eq

/-- the event is an `initialize` -/
def isInit : CompEvent → Bool
  | .init _ => true
  | _ => false

/-- last `initialize` of a history -/
def lastInit : List CompEvent → Option DimArgs
  | [] => none
  | .init a :: l => some ((lastInit l).getD a)
  | _ :: l => lastInit l

/-- C52 as claimed: on a component on which `initialize` was never called, every operation which needs the dimensions ends the
program with an error. -/
def C52Claim : Prop :=
  ∀ (es : List CompEvent) (c : Comp) outs, Comp.new.run es = .ok (c, outs) → (∀ e ∈ es, isInit e = false) →
    ∀ o : CompOp, o.needsDims = true → c.step (.op o) = .error .exitCall

/-- what an event that did not end the program did -/
def StepDid (c : Comp) (c' : Comp) (o : CompOut) : CompEvent → Prop
  | .init a => a.Asserted ∧ c' = ⟨true, some a.stored⟩ ∧ o = .computed (some a.stored)
  | .onInit => c' = c ∧ o = .computed c.dims
  | .op p => c' = c ∧ (p.guarded = true → c.initialized = true) ∧ o = if p.needsDims then .computed c.dims else .done

theorem step_init {c c' : Comp} {e : CompEvent} {o : CompOut} (h : c.step e = .ok (c', o)) : StepDid c c' o e := by
  cases e with
  | init a =>
    simp only [Comp.step, Comp.initialise] at h
    by_cases ha : a.Asserted
    · rw [require_ok ha] at h
      cases h
      exact ⟨ha, rfl, rfl⟩
    · rw [require_fail ha] at h
      cases h
  | onInit => cases h; exact ⟨rfl, rfl⟩
  | op p =>
    unfold Comp.step Comp.checkOrQuit at h
    cases hg : p.guarded with
    | false =>
      simp only [hg] at h
      cases h
      exact ⟨rfl, by simp [hg], rfl⟩
    | true =>
      simp only [hg, if_true] at h
      cases hi : c.initialized with
      | true =>
        simp only [hi, if_true] at h
        cases h
        exact ⟨rfl, fun _ => hi, rfl⟩
      | false =>
        simp only [hi] at h
        cases h

theorem run_cons {c c' : Comp} {e : CompEvent} {l : List CompEvent} {outs : List CompOut} (h : c.run (e :: l) = .ok (c', outs)) :
    ∃ c1 o outs', c.step e = .ok (c1, o) ∧ c1.run l = .ok (c', outs') ∧ outs = o :: outs' := by
  unfold Comp.run at h
  obtain ⟨r, h1, h⟩ := bind_eq_ok.1 h
  obtain ⟨s, h2, h⟩ := bind_eq_ok.1 h
  cases h
  exact ⟨r.1, r.2, s.2, h1, h2, rfl⟩

theorem run_state {l : List CompEvent} : ∀ {c c' : Comp} {outs : List CompOut}, c.run l = .ok (c', outs) →
    (∀ e ∈ l, ∀ a, e = .init a → a.Asserted) ∧
    c' = match lastInit l with
      | some a => ⟨true, some a.stored⟩
      | none => c := by
  induction l with
  | nil => intro c c' outs h; cases h; exact ⟨by simp, rfl⟩
  | cons e l ih =>
    intro c c' outs h
    obtain ⟨c1, o, outs', h1, h2, -⟩ := run_cons h
    obtain ⟨g1, g2⟩ := ih h2
    have hs := step_init h1
    refine ⟨?_, ?_⟩
    · intro e' he' a ha
      rcases List.mem_cons.1 he' with rfl | he'
      · subst ha; exact hs.1
      · exact g1 e' he' a ha
    · rw [g2]
      cases e with
      | init a =>
        rw [lastInit]
        cases lastInit l with
        | some b => rfl
        | none => exact hs.2.1
      | onInit => rw [lastInit, hs.1]; exact fun a h => nomatch h
      | op p => rw [lastInit, hs.1]; exact fun a h => nomatch h

theorem lastInit_none {l : List CompEvent} : lastInit l = none ↔ ∀ e ∈ l, isInit e = false := by
  induction l with
  | nil => simp [lastInit]
  | cons e l ih =>
    rw [List.forall_mem_cons]
    cases e with
    | init a => simp [lastInit, isInit]
    | onInit => exact ih.trans ⟨fun h => ⟨rfl, h⟩, fun h => h.2⟩
    | op p => exact ih.trans ⟨fun h => ⟨rfl, h⟩, fun h => h.2⟩

theorem lastInit_mem {l : List CompEvent} {a : DimArgs} (h : lastInit l = some a) : CompEvent.init a ∈ l := by
  induction l with
  | nil => cases h
  | cons e l ih =>
    cases e with
    | init b =>
      rw [lastInit] at h
      cases hl : lastInit l with
      | some c =>
        rw [hl] at h
        cases h
        exact List.mem_cons_of_mem _ (ih hl)
      | none =>
        rw [hl] at h
        cases h
        exact List.mem_cons_self
    | onInit => exact List.mem_cons_of_mem _ (ih h)
    | op p => exact List.mem_cons_of_mem _ (ih h)

theorem lastInit_snoc (l : List CompEvent) (e : CompEvent) : lastInit (l ++ [e]) = match e with
    | .init a => some a
    | _ => lastInit l := by
  induction l with
  | nil => cases e <;> rfl
  | cons b l ih =>
    rw [List.cons_append]
    cases b with
    | init a =>
      rw [lastInit, ih]
      cases e <;> rfl
    | onInit => exact ih
    | op p => exact ih

/-- C52, partial: after every history without `initialize`, every operation which checks ends the program, whatever it does.
These are all operations which need the dimensions except the seven of `c52_unguarded_partial`. -/
theorem c52_refused_partial {es : List CompEvent} {c : Comp} {outs : List CompOut} (h : Comp.new.run es = .ok (c, outs))
    (hn : ∀ e ∈ es, isInit e = false) {o : CompOp} (hg : o.guarded = true) : c.step (.op o) = .error .exitCall := by
  have := (run_state h).2
  rw [lastInit_none.2 hn] at this
  subst this
  unfold Comp.step
  simp only [hg, if_true]
  rfl

/-- C52, partial: exactly these operations compute with dimensions although the component was never initialised. -/
theorem c52_unguarded_partial {es : List CompEvent} {c : Comp} {outs : List CompOut} (h : Comp.new.run es = .ok (c, outs))
    (hn : ∀ e ∈ es, isInit e = false) (o : CompOp) :
    c.step (.op o) = .ok (c, .computed none) ↔
      o = .mapSetInputScaling ∨ o = .nlGetLowerBound ∨ o = .nlGetUpperBound ∨ o = .lSetReferencesAt ∨
      o = .lSetExogenousInputsAt ∨ o = .pbMapToOutput ∨ o = .pbGet := by
  have := (run_state h).2
  rw [lastInit_none.2 hn] at this
  subst this
  unfold Comp.step Comp.checkOrQuit Comp.new
  cases o <;> simp [CompOp.guarded, CompOp.needsDims] <;> first | rfl | (intro h; cases h)

/-- C52, dimensions: after every history of events which did not end the program, everything the last event computed used the
arguments of the last `initialize`, and those have positive horizons and no negative dimension. -/
theorem c52_initialised_dimensions {es : List CompEvent} {c c' : Comp} {outs : List CompOut} {o : CompOut} {e : CompEvent}
    {d : Dims} (h : Comp.new.run es = .ok (c, outs)) (hs : c.step e = .ok (c', o)) (ho : o = .computed (some d))
    (hint : ∀ a, .init a ∈ es ++ [e] → argsInt a) :
    ∃ a, lastInit (es ++ [e]) = some a ∧ argsValid a ∧ dimsAre d a ∧ dimsAllowed d := by
  have hst := run_state h
  have conv : ∀ a : DimArgs, a.Asserted → argsInt a → argsValid a ∧ dimsAre a.stored a ∧ dimsAllowed a.stored := by
    intro a ha hi
    obtain ⟨h1, h2, h3, h4, h5, h6, h7, h8⟩ := ha
    have ts : ∀ x : Int, 0 ≤ x → x < 2 ^ 31 → ((toSizeT x : Nat) : Int) = x := by
      intro x h0 hx
      unfold toSizeT
      omega
    have hp := ts a.ph (by omega) (hi a.ph (by simp)).2
    have hc := ts a.ch (by omega) (hi a.ch (by simp)).2
    refine ⟨⟨h1, h2, h3, h4, h5, h6, h7, h8⟩, ⟨ts _ h1 (hi _ (by simp)).2, ts _ h2 (hi _ (by simp)).2,
      ts _ h3 (hi _ (by simp)).2, ts _ h4 (hi _ (by simp)).2, hp, hc, ts _ h7 (hi _ (by simp)).2, ts _ h8 (hi _ (by simp)).2⟩,
      ?_, ?_⟩
    · show 0 < toSizeT a.ph
      omega
    · show 0 < toSizeT a.ch
      omega
  have happ : ∀ l : List CompEvent, isInit e = false → lastInit (l ++ [e]) = lastInit l := by
    intro l he
    rw [lastInit_snoc]
    cases e <;> first | rfl | cases he
  have old : isInit e = false → c.dims = some d → ∃ a, lastInit (es ++ [e]) = some a ∧ argsValid a ∧ dimsAre d a ∧ dimsAllowed d := by
    intro he hd
    rw [happ es he]
    cases hl : lastInit es with
    | none =>
      rw [hl] at hst
      rw [hst.2] at hd
      cases hd
    | some a =>
      rw [hl] at hst
      rw [hst.2] at hd
      cases hd
      have hm := lastInit_mem hl
      exact ⟨a, rfl, conv a (hst.1 _ hm a rfl) (hint a (by simp [hm]))⟩
  have hs := step_init hs
  cases e with
  | init a =>
    obtain ⟨h1, -, h3⟩ := hs
    rw [ho] at h3
    cases h3
    exact ⟨a, lastInit_snoc es _, conv a h1 (hint a (by simp))⟩
  | onInit =>
    refine old rfl ?_
    have := hs.2
    rw [ho] at this
    cases hd : c.dims <;> rw [hd] at this <;> cases this
    rfl
  | op p =>
    refine old rfl ?_
    have := hs.2.2
    rw [ho] at this
    cases hn : p.needsDims
    · rw [hn] at this; cases this
    · rw [hn] at this
      cases hd : c.dims <;> rw [hd] at this <;> cases this
      rfl

/-- C52, invalid arguments: `initialize` with a negative dimension or a horizon that is not positive ends the program, after
every history. -/
theorem c52_invalid_refused (c : Comp) (a : DimArgs) (ha : ¬ argsValid a) :
    c.step (.init a) = .error .assertion := by
  have : ¬ a.Asserted := fun h => ha ⟨h.1, h.2.1, h.2.2.1, h.2.2.2.1, h.2.2.2.2.1, h.2.2.2.2.2.1, h.2.2.2.2.2.2.1,
    h.2.2.2.2.2.2.2⟩
  simp only [Comp.step, Comp.initialise]
  rw [require_fail this]
  rfl

/-- C52, valid arguments: after `initialize` with valid arguments no operation ends the program. -/
theorem c52_initialised_usable (c : Comp) (a : DimArgs) (ha : argsValid a) :
    ∃ c' o, c.step (.init a) = .ok (c', o) ∧ ∀ p, ∃ q, c'.step (.op p) = .ok (c', q) := by
  have h : a.Asserted := ha
  refine ⟨⟨true, some a.stored⟩, .computed (some a.stored), ?_, ?_⟩
  · simp only [Comp.step, Comp.initialise]
    rw [require_ok h]
    rfl
  · intro p
    refine ⟨if p.needsDims then .computed (some a.stored) else .done, ?_⟩
    unfold Comp.step Comp.checkOrQuit
    cases p <;> rfl

/-- C52 is violated: `Mapping::setInputScaling` computes with dimensions that were never set. -/
theorem c52_violated : ¬ C52Claim := by
  intro hc
  have := hc [] Comp.new [] rfl (by simp) .mapSetInputScaling rfl
  cases this

/-- non-vacuity: an initialised component, a repeated initialisation, and a refused use before initialisation -/
example : ∃ c outs, Comp.new.run [.op .mapSetStateScaling, .init ⟨2, 1, 0, 1, 3, 2, 0, 0⟩, .op .mapUnwrapVector] = .ok (c, outs)
    ∧ c.dims = some { nx := 2, nu := 1, ndu := 0, ny := 1, ph := 3, ch := 2, ineq := 0, eq := 0 } := by
  refine ⟨_, _, rfl, ?_⟩
  simp [DimArgs.stored, toSizeT]

example : argsInt ⟨2, 1, 0, 1, 3, 2, 0, 0⟩ ∧ argsValid ⟨2, 1, 0, 1, 3, 2, 0, 0⟩ := by
  constructor
  · simp [argsInt]
  · simp [argsValid]

end Mpc.Props
