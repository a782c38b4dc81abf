import Verif.Spec.Copies
import Verif.Proofs.Instances

/-
Copies of a class whose members are all behind one pointer are further names of one controller.
-/
namespace Mpc
open Exec Spec
namespace World
variable {k : Kind}

/-- all members are behind the pointer, which the destructor deletes -/
structure ByPointer (k : Kind) : Prop where
  via : ∀ op, k.viaOwner op = false
  deletes : ∀ b, k.deletes b = true
  copyable : ∀ b, k.copyable b = true
  one : ∀ a b : k.Body, a = b

/-- the state of the controller number `p` -/
def numbered (b : k.Body) (w : World k) (p : Nat) : Option (k.Body × k.Opt) := (w.heap p).map fun c => (b, c.opt)

/-- the names stand for the addresses -/
structure Named (n : Names) (w : World k) : Prop where
  ptr : ∀ i, (w.objs i).map Obj.ptr = n.of i
  next : n.next = w.fresh
  unused : ∀ p, w.fresh ≤ p → w.heap p = none

theorem named_empty : Named Names.start (empty k) := ⟨fun _ => rfl, rfl, fun _ _ => rfl⟩

theorem obj_ok {w : World k} {i : Nat} {o : Obj k} : w.obj i = .ok o ↔ w.objs i = some o := by
  unfold obj
  split <;> simp_all

theorem cell_ok {w : World k} {p : Nat} {c : Cell k} : w.cell p = .ok c ↔ w.heap p = some c := by
  unfold cell
  split <;> simp_all

theorem Named.of_some {n : Names} {w : World k} (h : Named n w) {i : Nat} {o : Obj k} (ho : w.objs i = some o) : n.of i = some o.ptr := by
  rw [← h.ptr i, ho]; rfl

theorem Named.view {b : k.Body} (hk : ByPointer k) {n : Names} {w : World k} (h : Named n w) (i : Nat) :
    w.view i = (n.of i).bind (w.numbered b) := by
  rw [← h.ptr i]
  unfold World.view numbered
  cases ho : w.objs i with
  | none => rfl
  | some o =>
    simp only [Option.map_some, Option.bind_some]
    cases w.heap o.ptr with
    | none => rfl
    | some c => simp only [Option.map_some, hk.one o.body b]

theorem step_named {b : k.Body} (hk : ByPointer k) {n : Names} {w : World k} (h : Named n w) {op : WOp k} {r} (hr : w.step op = .ok r) :
    Named (n.after op) r.1 ∧ ∀ p, (n.concerns p op → aloneStep (w.numbered b p) op = .ok (r.1.numbered b p, r.2)) ∧
      (¬ n.concerns p op → r.1.numbered b p = w.numbered b p) := by
  cases op with
  | copy i j =>
    simp only [step, bind_eq_ok, obj_ok] at hr
    obtain ⟨o, ho, -, -, -, -, he⟩ := hr
    cases he
    refine ⟨⟨fun l => ?_, h.next, h.unused⟩, fun p => ⟨fun hc => hc.elim, fun _ => rfl⟩⟩
    by_cases hl : l = j
    · subst hl
      simp only [set_self, Names.after, if_true, Option.map_some, h.of_some ho]
    · simp only [set_ne hl, Names.after, if_neg hl, h.ptr]
  | assign i j =>
    simp only [step, bind_eq_ok, obj_ok] at hr
    obtain ⟨o, ho, -, -, -, -, he⟩ := hr
    cases he
    refine ⟨⟨fun l => ?_, h.next, h.unused⟩, fun p => ⟨fun hc => hc.elim, fun _ => rfl⟩⟩
    by_cases hl : l = j
    · subst hl
      simp only [set_self, Names.after, if_true, Option.map_some, h.of_some ho]
    · simp only [set_ne hl, Names.after, if_neg hl, h.ptr]
  | create i a =>
    simp only [step, bind_eq_ok, require_eq_ok] at hr
    obtain ⟨-, hn, q, hq, he⟩ := hr
    cases he
    refine ⟨⟨fun l => ?_, congrArg (· + 1) h.next, fun p hp => ?_⟩, fun p => ⟨fun hc => ?_, fun hc => ?_⟩⟩
    · by_cases hl : l = i
      · subst hl
        simp only [set_self, Names.after, if_true, Option.map_some, h.next]
      · simp only [set_ne hl, Names.after, if_neg hl, h.ptr]
    · have hp : w.fresh + 1 ≤ p := hp
      exact (set_ne (by omega)).trans (h.unused p (by omega))
    · have hc : n.next = p := hc
      have e : p = w.fresh := hc.symm.trans h.next
      subst e
      simp only [numbered, h.unused w.fresh (Nat.le_refl _), Option.map_none, aloneStep, hq, ok_bind, set_self, Option.map_some,
        hk.one b q.1]
      rfl
    · have hc : n.next ≠ p := hc
      rw [h.next] at hc
      simp only [numbered, set_ne (Ne.symm hc)]
  | call i op =>
    simp only [step, bind_eq_ok, obj_ok, cell_ok, hk.via, Bool.false_eq_true, if_false] at hr
    obtain ⟨o, ho, c, hc, b', hb, q, hq, he⟩ := hr
    rw [ho] at hb
    cases hb
    cases he
    have hof := h.of_some ho
    have hlt : o.ptr < w.fresh := by
      by_contra hn
      rw [h.unused _ (by omega)] at hc
      cases hc
    refine ⟨⟨fun l => ?_, h.next, fun p hp => ?_⟩, fun p => ⟨fun hcc => ?_, fun hcc => ?_⟩⟩
    · by_cases hl : l = i
      · subst hl
        simp only [set_self, Names.after, Option.map_some, hof]
      · simp only [set_ne hl, Names.after, h.ptr]
    · have hp : w.fresh ≤ p := hp
      exact (set_ne (by omega)).trans (h.unused p hp)
    · have hcc : n.of i = some p := hcc
      rw [hof] at hcc
      cases hcc
      simp only [numbered, hc, Option.map_some, aloneStep, hk.one b o.body, hq, ok_bind, set_self, hk.one q.1 o.body]
      rfl
    · have hcc : n.of i ≠ some p := hcc
      rw [hof] at hcc
      simp only [numbered, set_ne fun e : p = o.ptr => hcc (e ▸ rfl)]
  | destroy i =>
    simp only [step, bind_eq_ok, obj_ok, hk.deletes, if_true, require_eq_ok] at hr
    obtain ⟨o, ho, -, hs, he⟩ := hr
    cases he
    have hof := h.of_some ho
    refine ⟨⟨fun l => ?_, h.next, fun p hp => ?_⟩, fun p => ⟨fun hcc => ?_, fun hcc => ?_⟩⟩
    · by_cases hl : l = i
      · subst hl
        simp only [set_self, Names.after, if_true, Option.map_none]
      · simp only [set_ne hl, Names.after, if_neg hl, h.ptr]
    · by_cases e : p = o.ptr
      · rw [e]; exact set_self
      · exact (set_ne e).trans (h.unused p hp)
    · have hcc : n.of i = some p := hcc
      rw [hof] at hcc
      cases hcc
      obtain ⟨c, hc⟩ := Option.isSome_iff_exists.1 hs
      simp only [numbered, hc, Option.map_some, aloneStep, set_self, Option.map_none]
    · have hcc : n.of i ≠ some p := hcc
      rw [hof] at hcc
      simp only [numbered, set_ne fun e : p = o.ptr => hcc (e ▸ rfl)]

theorem run_named {b : k.Body} (hk : ByPointer k) : ∀ {ops : List (WOp k)} {n : Names} {w w' : World k} {outs : List (Option k.Out)},
    Named n w → w.run ops = .ok (w', outs) →
    Named (n.afterAll ops) w' ∧ ∀ p, aloneRun (w.numbered b p) (n.steps p ops) = .ok (w'.numbered b p, n.rets p ops outs)
  | [], n, w, w', outs, h, hr => by
    cases hr
    exact ⟨h, fun p => rfl⟩
  | op :: ops, n, w, w', outs, h, hr => by
    simp only [run, bind_eq_ok] at hr
    obtain ⟨r, hr1, s, hs, he⟩ := hr
    cases he
    obtain ⟨h1, h2⟩ := step_named (b := b) hk h hr1
    obtain ⟨g1, g2⟩ := run_named (b := b) hk h1 hs
    refine ⟨g1, fun p => ?_⟩
    by_cases hc : n.concerns p op
    · simp only [Names.steps, Names.rets, if_pos hc, aloneRun, (h2 p).1 hc, ok_bind, g2]
      rfl
    · simp only [Names.steps, Names.rets, if_neg hc, ← (h2 p).2 hc]
      exact g2 p

/-- A step which the names allow and which its controller, if it concerns one, could take alone, does not fault. -/
theorem step_usable {b : k.Body} (hk : ByPointer k) {n : Names} {w : World k} (h : Named n w) {op : WOp k} (hu : n.Usable op)
    (ha : ∀ p, n.concerns p op → ∃ q, aloneStep (w.numbered b p) op = .ok q) : ∃ r, w.step op = .ok r := by
  have get : ∀ i, n.of i ≠ none → ∃ o, w.objs i = some o := fun i hi => by
    rw [← h.ptr i] at hi
    cases ho : w.objs i with
    | none => rw [ho] at hi; exact absurd rfl hi
    | some o => exact ⟨o, rfl⟩
  have free : ∀ i, n.of i = none → w.objs i = none := fun i hi => by
    rw [← h.ptr i] at hi
    simpa using hi
  cases op with
  | copy i j =>
    obtain ⟨o, ho⟩ := get i hu.1
    exact ⟨_, step_copy (hk.copyable _) ho (free j hu.2)⟩
  | assign i j =>
    obtain ⟨o, ho⟩ := get i hu.1
    obtain ⟨o', ho'⟩ := get j hu.2
    refine ⟨({ w with objs := set w.objs j (some o) }, none), ?_⟩
    simp only [step, obj, ho, ho', hk.copyable, require, ok_bind]; rfl
  | create i a =>
    obtain ⟨q, hq⟩ := ha n.next rfl
    rw [numbered, h.next, h.unused _ (Nat.le_refl _)] at hq
    simp only [Option.map_none, aloneStep, bind_eq_ok] at hq
    obtain ⟨q', hq', -⟩ := hq
    exact ⟨_, step_create (free i hu) hq'⟩
  | call i op =>
    obtain ⟨o, ho⟩ := get i hu
    obtain ⟨q, hq⟩ := ha o.ptr (h.of_some ho)
    cases hc : w.heap o.ptr with
    | none =>
      rw [numbered, hc] at hq
      cases hq
    | some c =>
      rw [numbered, hc] at hq
      simp only [Option.map_some, aloneStep, bind_eq_ok] at hq
      obtain ⟨q', hq', -⟩ := hq
      exact ⟨_, step_call ho hc (hk.via op) (hk.one b o.body ▸ hq')⟩
  | destroy i =>
    obtain ⟨o, ho⟩ := get i hu
    obtain ⟨q, hq⟩ := ha o.ptr (h.of_some ho)
    cases hc : w.heap o.ptr with
    | none =>
      rw [numbered, hc] at hq
      cases hq
    | some c => exact ⟨_, step_destroy (hk.deletes _) ho hc⟩

theorem run_usable {b : k.Body} (hk : ByPointer k) : ∀ {ops : List (WOp k)} {n : Names} {w : World k},
    Named n w → n.UsableAll ops → (∀ p, ∃ q, aloneRun (w.numbered b p) (n.steps p ops) = .ok q) → ∃ q, w.run ops = .ok q
  | [], n, w, h, _, _ => ⟨_, rfl⟩
  | op :: ops, n, w, h, hu, ha => by
    obtain ⟨r, hr⟩ := step_usable (b := b) hk h hu.1 fun p hc => by
      obtain ⟨q, hq⟩ := ha p
      simp only [Names.steps, if_pos hc, aloneRun, bind_eq_ok] at hq
      obtain ⟨s, hs, -⟩ := hq
      exact ⟨s, hs⟩
    obtain ⟨h1, h2⟩ := step_named (b := b) hk h hr
    obtain ⟨q, hq⟩ := run_usable (b := b) hk (ops := ops) h1 hu.2 fun p => by
      obtain ⟨q, hq⟩ := ha p
      by_cases hc : n.concerns p op
      · simp only [Names.steps, if_pos hc, aloneRun, (h2 p).1 hc, ok_bind, bind_eq_ok] at hq
        obtain ⟨t, ht, -⟩ := hq
        exact ⟨t, ht⟩
      · simp only [Names.steps, if_neg hc] at hq
        rw [(h2 p).2 hc]
        exact ⟨q, hq⟩
    exact ⟨(q.1, r.2 :: q.2), by simp only [run, hr, ok_bind, hq]; rfl⟩

end World
end Mpc
