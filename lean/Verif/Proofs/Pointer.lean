import Verif.Proofs.Copies

/-
Copies of one controller whose members are all behind one pointer, in programs which also have controllers of other classes.
-/
namespace Mpc
open Exec Spec
namespace World
variable {k : Kind}

/-- `b` are the members of a class all of whose data are behind the pointer, which the destructor deletes; `O` are the optimizers of this
class -/
structure PointerClass (k : Kind) (b : k.Body) (O : k.Opt → Prop) : Prop where
  build : ∀ a r, k.build a = .ok r → (r.1 = b ↔ O r.2)
  step : ∀ b' o op r, k.step b' o op = .ok r → (b' = b ↔ O o) ∧ (b' = b → r.1 = b ∧ O r.2.1 ∧ k.viaOwner op = false)
  deletes : k.deletes b = true

/-- the names stand for the addresses; the controller number `p`, if it exists, is of the class -/
structure NamedAt (b : k.Body) (O : k.Opt → Prop) (p : Nat) (n : Names) (w : World k) : Prop where
  named : Named n w
  old : ∀ i o, w.objs i = some o → o.ptr < w.fresh
  cell : ∀ c, w.heap p = some c → O c.opt
  body : ∀ i o, w.objs i = some o → o.ptr = p → o.body = b

theorem namedAt_empty {b : k.Body} {O : k.Opt → Prop} {p : Nat} : NamedAt b O p Names.start (empty k) :=
  ⟨named_empty, fun i o h => by simp [empty] at h, fun c h => by simp [empty] at h, fun i o h => by simp [empty] at h⟩

/-- if the step constructs the controller number `p`, it is of the class -/
def Builds (b : k.Body) (n : Names) (p : Nat) (op : WOp k) : Prop :=
  n.concerns p op → ∀ i a, op = .create i a → ∀ r, k.build a = .ok r → r.1 = b

theorem NamedAt.view {b : k.Body} {O : k.Opt → Prop} {p : Nat} {n : Names} {w : World k} (h : NamedAt b O p n w) {i : Nat}
    (hi : n.of i = some p) : w.view i = w.numbered b p := by
  rw [← h.named.ptr i] at hi
  unfold World.view numbered
  cases ho : w.objs i with
  | none => rw [ho] at hi; cases hi
  | some o =>
    rw [ho] at hi
    have e : o.ptr = p := Option.some.inj hi
    simp only [e, h.body i o ho e]
    cases w.heap p <;> rfl

theorem step_namedAt {b : k.Body} {O : k.Opt → Prop} (hk : PointerClass k b O) {p : Nat} {n : Names} {w : World k} (h : NamedAt b O p n w)
    {op : WOp k} (hb : Builds b n p op) {r} (hr : w.step op = .ok r) :
    NamedAt b O p (n.after op) r.1 ∧ (n.concerns p op → aloneStep (w.numbered b p) op = .ok (r.1.numbered b p, r.2)) ∧
      (¬ n.concerns p op → r.1.numbered b p = w.numbered b p) := by
  obtain ⟨hn, hold, hcell, hbody⟩ := h
  have copied : ∀ i j o, w.objs i = some o →
      NamedAt b O p ⟨fun l => if l = j then n.of i else n.of l, n.next⟩ { w with objs := set w.objs j (some o) } := by
    intro i j o ho
    refine ⟨⟨fun l => ?_, hn.next, hn.unused⟩, fun l o' h' => ?_, hcell, fun l o' h' he => ?_⟩
    · by_cases hl : l = j
      · subst hl
        simp only [set_self, if_true, Option.map_some, hn.of_some ho]
      · simp only [set_ne hl, if_neg hl, hn.ptr]
    · by_cases hl : l = j
      · subst hl
        simp only [set_self, Option.some.injEq] at h'
        exact h' ▸ hold i o ho
      · exact hold l o' ((set_ne hl).symm.trans h')
    · by_cases hl : l = j
      · subst hl
        simp only [set_self, Option.some.injEq] at h'
        subst h'
        exact hbody i o ho he
      · exact hbody l o' ((set_ne hl).symm.trans h') he
  cases op with
  | copy i j =>
    simp only [step, bind_eq_ok, obj_ok] at hr
    obtain ⟨o, ho, -, -, -, -, he⟩ := hr
    cases he
    exact ⟨copied i j o ho, fun hc => hc.elim, fun _ => rfl⟩
  | assign i j =>
    simp only [step, bind_eq_ok, obj_ok] at hr
    obtain ⟨o, ho, -, -, -, -, he⟩ := hr
    cases he
    exact ⟨copied i j o ho, fun hc => hc.elim, fun _ => rfl⟩
  | create i a =>
    simp only [step, bind_eq_ok, require_eq_ok] at hr
    obtain ⟨-, -, q, hq, he⟩ := hr
    cases he
    refine ⟨⟨⟨fun l => ?_, congrArg (· + 1) hn.next, fun p hp => ?_⟩, fun l o' h' => ?_, fun c hc => ?_, fun l o' h' he => ?_⟩,
      fun hc => ?_, fun hc => ?_⟩
    · by_cases hl : l = i
      · subst hl
        simp only [set_self, Names.after, if_true, Option.map_some, hn.next]
      · simp only [set_ne hl, Names.after, if_neg hl, hn.ptr]
    · have hp : w.fresh + 1 ≤ p := hp
      exact (set_ne (by omega)).trans (hn.unused p (by omega))
    · show o'.ptr < w.fresh + 1
      by_cases hl : l = i
      · subst hl
        simp only [set_self, Option.some.injEq] at h'
        subst h'
        exact Nat.lt_succ_self _
      · have := hold l o' ((set_ne hl).symm.trans h')
        omega
    · by_cases e : p = w.fresh
      · have hb' := hb (show n.next = p from hn.next.trans e.symm) i a rfl q hq
        rw [e] at hc
        simp only [set_self, Option.some.injEq] at hc
        subst hc
        exact (hk.build a q hq).1 hb'
      · exact hcell c ((set_ne e).symm.trans hc)
    · by_cases hl : l = i
      · subst hl
        simp only [set_self, Option.some.injEq] at h'
        subst h'
        exact hb (show n.next = p from hn.next.trans he) l a rfl q hq
      · exact hbody l o' ((set_ne hl).symm.trans h') he
    · have hb' := hb hc i a rfl q hq
      have hc : n.next = p := hc
      have e : p = w.fresh := hc.symm.trans hn.next
      subst e
      simp only [numbered, hn.unused w.fresh (Nat.le_refl _), Option.map_none, aloneStep, hq, ok_bind, set_self, Option.map_some, ← hb']
      rfl
    · have hc : n.next ≠ p := hc
      rw [hn.next] at hc
      simp only [numbered, set_ne (Ne.symm hc)]
  | call i op =>
    simp only [step, bind_eq_ok, obj_ok, cell_ok] at hr
    obtain ⟨o, ho, c, hc, b', hb', q, hq, he⟩ := hr
    cases he
    generalize ht : (if k.viaOwner op then c.owner else i) = t at hb'
    have hof := hn.of_some ho
    obtain ⟨hs1, hs2⟩ := hk.step _ _ _ _ hq
    refine ⟨⟨⟨fun l => ?_, hn.next, fun p hp => ?_⟩, fun l o' h' => ?_, fun c' hc' => ?_, fun l o' h' he => ?_⟩, fun hcc => ?_, fun hcc => ?_⟩
    · by_cases hl : l = t
      · subst hl
        simp only [set_self, Names.after, Option.map_some, hn.of_some hb']
      · simp only [set_ne hl, Names.after, hn.ptr]
    · have hp : w.fresh ≤ p := hp
      have := hold i o ho
      exact (set_ne (by omega)).trans (hn.unused p hp)
    · by_cases hl : l = t
      · subst hl
        simp only [set_self, Option.some.injEq] at h'
        subst h'
        exact hold l b' hb'
      · exact hold l o' ((set_ne hl).symm.trans h')
    · by_cases e : p = o.ptr
      · rw [e] at hc'
        simp only [set_self, Option.some.injEq] at hc'
        subst hc'
        exact (hs2 (hs1.2 (hcell c (e ▸ hc)))).2.1
      · exact hcell c' ((set_ne e).symm.trans hc')
    · by_cases hl : l = t
      · subst hl
        simp only [set_self, Option.some.injEq] at h'
        subst h'
        exact (hs2 (hbody l b' hb' he)).1
      · exact hbody l o' ((set_ne hl).symm.trans h') he
    · have hcc : n.of i = some p := hcc
      rw [hof] at hcc
      have e : o.ptr = p := Option.some.inj hcc
      have hbb : b'.body = b := hs1.2 (hcell c (e ▸ hc))
      simp only [hbb] at hq
      have hqb : q.1 = b := (hs2 hbb).1
      simp only [numbered, ← e, hc, Option.map_some, aloneStep, hq, ok_bind, set_self, hqb]
      rfl
    · have hcc : n.of i ≠ some p := hcc
      rw [hof] at hcc
      simp only [numbered, set_ne fun e : p = o.ptr => hcc (e ▸ rfl)]
  | destroy i =>
    simp only [step, bind_eq_ok, obj_ok] at hr
    obtain ⟨o, ho, hr⟩ := hr
    have hof := hn.of_some ho
    have gone : ∀ hp : Nat → Option (Cell k), (∀ l c, hp l = some c → w.heap l = some c) →
        NamedAt b O p ⟨fun l => if l = i then none else n.of l, n.next⟩ (⟨set w.objs i none, hp, w.fresh⟩ : World k) := by
      intro hp h1
      have old : ∀ l o', set w.objs i none l = some o' → w.objs l = some o' := by
        intro l o' h'
        by_cases hl : l = i
        · subst hl; simp only [set_self] at h'; cases h'
        · exact (set_ne (f := w.objs) hl).symm.trans h'
      refine ⟨⟨fun l => ?_, hn.next, fun l hl => ?_⟩, fun l o' h' => hold l o' (old l o' h'), fun c hc => hcell c (h1 p c hc),
        fun l o' h' => hbody l o' (old l o' h')⟩
      · by_cases hl : l = i
        · subst hl
          simp only [set_self, if_true, Option.map_none]
        · simp only [set_ne hl, if_neg hl, hn.ptr]
      · cases hh : hp l with
        | none => exact hh
        | some c => exact absurd (h1 l c hh) (by rw [hn.unused l hl]; intro e; cases e)
    cases hd : k.deletes o.body with
    | true =>
      simp only [hd, if_true, bind_eq_ok, require_eq_ok] at hr
      obtain ⟨-, hs, he⟩ := hr
      cases he
      refine ⟨gone _ fun l c hl => ?_, fun hcc => ?_, fun hcc => ?_⟩
      · by_cases e : l = o.ptr
        · rw [e] at hl; simp only [set_self] at hl; cases hl
        · exact (set_ne e).symm.trans hl
      · have hcc : n.of i = some p := hcc
        rw [hof] at hcc
        have e : o.ptr = p := Option.some.inj hcc
        obtain ⟨c, hc⟩ := Option.isSome_iff_exists.1 hs
        simp only [numbered, ← e, hc, Option.map_some, aloneStep, set_self, Option.map_none]
      · have hcc : n.of i ≠ some p := hcc
        rw [hof] at hcc
        simp only [numbered, set_ne fun e : p = o.ptr => hcc (e ▸ rfl)]
    | false =>
      simp only [hd, Bool.false_eq_true, if_false] at hr
      cases hr
      refine ⟨gone _ fun l c hl => hl, fun hcc => ?_, fun hcc => rfl⟩
      have hcc : n.of i = some p := hcc
      rw [hof] at hcc
      have := hbody i o ho (Option.some.inj hcc)
      rw [this, hk.deletes] at hd
      cases hd

theorem run_namedAt {b : k.Body} {O : k.Opt → Prop} (hk : PointerClass k b O) {p : Nat} : ∀ {ops : List (WOp k)} {n : Names}
    {w w' : World k} {outs : List (Option k.Out)}, NamedAt b O p n w →
    (∀ i a, WOp.create i a ∈ n.steps p ops → ∀ r, k.build a = .ok r → r.1 = b) → w.run ops = .ok (w', outs) →
    NamedAt b O p (n.afterAll ops) w' ∧ aloneRun (w.numbered b p) (n.steps p ops) = .ok (w'.numbered b p, n.rets p ops outs)
  | [], n, w, w', outs, h, _, hr => by
    cases hr
    exact ⟨h, rfl⟩
  | op :: ops, n, w, w', outs, h, hb, hr => by
    simp only [run, bind_eq_ok] at hr
    obtain ⟨r, hr1, s, hs, he⟩ := hr
    cases he
    obtain ⟨h1, h2, h3⟩ := step_namedAt hk h (fun hc i a e r hr => hb i a (by
      simp only [Names.steps, if_pos hc, e]; exact List.mem_cons_self) r hr) hr1
    obtain ⟨g1, g2⟩ := run_namedAt hk h1 (fun i a hm => hb i a (by
      simp only [Names.steps]
      split
      · exact List.mem_cons_of_mem _ hm
      · exact hm)) hs
    refine ⟨g1, ?_⟩
    by_cases hc : n.concerns p op
    · simp only [Names.steps, Names.rets, if_pos hc, aloneRun, h2 hc, ok_bind, g2]
      rfl
    · simp only [Names.steps, Names.rets, if_neg hc, ← h3 hc]
      exact g2

end World
end Mpc
