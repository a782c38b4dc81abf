import Verif.Proofs.Instances

/-
A controller which is never copied is alone, whatever is done with other controllers and their copies.
-/
namespace Mpc
open Exec Spec
namespace World
variable {k : Kind}

/-- the object `i` has its own optimizer, which points back to it, and no other object has an optimizer which points to `i` -/
structure Lone (i : Nat) (w : World k) : Prop where
  own : ∀ o, w.objs i = some o → ∃ c, w.heap o.ptr = some c ∧ c.owner = i
  others : ∀ j o c, j ≠ i → w.objs j = some o → w.heap o.ptr = some c → c.owner ≠ i
  old : ∀ j o, w.objs j = some o → o.ptr < w.fresh

theorem lone_empty (i : Nat) : Lone i (empty k) :=
  ⟨fun o h => by simp [empty] at h, fun j o c _ h => by simp [empty] at h, fun j o h => by simp [empty] at h⟩

/-- a step which does not copy `i`, nor to `i` -/
def apartFrom (i : Nat) : WOp k → Prop
  | .copy a b => a ≠ i ∧ b ≠ i
  | .assign a b => a ≠ i ∧ b ≠ i
  | _ => True

theorem set_eq {α : Type} (f : Nat → Option α) (i j : Nat) (v : Option α) : set f i v j = if j = i then v else f j := rfl

theorem lone_copy {w : World k} {i a b : Nat} {o : Obj k} (h : Lone i w) (ha : a ≠ i) (hb : b ≠ i) (ho : w.objs a = some o) :
    Lone i { w with objs := set w.objs b (some o) } ∧
      view { w with objs := set w.objs b (some o) } i = w.view i := by
  refine ⟨⟨fun o' h' => ?_, fun j o' c hj h' hc => ?_, fun j o' h' => ?_⟩, ?_⟩
  · exact h.own o' ((set_ne (Ne.symm hb)).symm.trans h')
  · by_cases hjb : j = b
    · subst hjb
      simp only [set_self, Option.some.injEq] at h'
      subst h'
      exact h.others a o c ha ho hc
    · exact h.others j o' c hj ((set_ne hjb).symm.trans h') hc
  · by_cases hjb : j = b
    · subst hjb
      simp only [set_self, Option.some.injEq] at h'
      subst h'
      exact h.old a o ho
    · exact h.old j o' ((set_ne hjb).symm.trans h')
  · simp only [view, set_ne (Ne.symm hb)]

/-- What a step does to the world, seen from a controller which is alone. -/
theorem step_lone {w : World k} {i : Nat} (h : Lone i w) {op : WOp k} (hop : apartFrom i op) {r} (hr : w.step op = .ok r) :
    Lone i r.1 ∧ (subject op = i → aloneStep (w.view i) op = .ok (r.1.view i, r.2)) ∧ (subject op ≠ i → r.1.view i = w.view i) := by
  cases op with
  | copy a b =>
    simp only [step, bind_eq_ok] at hr
    obtain ⟨o, ho, -, -, -, -, he⟩ := hr
    cases he
    have ho : w.objs a = some o := by
      unfold obj at ho
      split at ho
      · next hx => cases ho; exact hx
      · cases ho
    obtain ⟨h1, h2⟩ := lone_copy h hop.1 hop.2 ho
    exact ⟨h1, fun e => absurd e hop.2, fun _ => h2⟩
  | assign a b =>
    simp only [step, bind_eq_ok] at hr
    obtain ⟨o, ho, -, -, -, -, he⟩ := hr
    cases he
    have ho : w.objs a = some o := by
      unfold obj at ho
      split at ho
      · next hx => cases ho; exact hx
      · cases ho
    obtain ⟨h1, h2⟩ := lone_copy h hop.1 hop.2 ho
    exact ⟨h1, fun e => absurd e hop.2, fun _ => h2⟩
  | create j a =>
    simp only [step, bind_eq_ok, require_eq_ok] at hr
    obtain ⟨-, hn, q, hq, he⟩ := hr
    cases he
    have hj : w.objs j = none := by simpa using hn
    refine ⟨⟨fun o ho => ?_, fun l o c hl ho hc => ?_, fun l o ho => ?_⟩, fun e => ?_, fun e => ?_⟩
    · by_cases hij : i = j
      · subst hij
        simp only [set_self, Option.some.injEq] at ho
        subst ho
        exact ⟨_, set_self, rfl⟩
      · have ho := (set_ne (f := w.objs) hij).symm.trans ho
        obtain ⟨c, hc, he⟩ := h.own o ho
        have := h.old i o ho
        exact ⟨c, (set_ne (by omega)).trans hc, he⟩
    · by_cases hlj : l = j
      · subst hlj
        simp only [set_self, Option.some.injEq] at ho
        subst ho
        simp only [set_self, Option.some.injEq] at hc
        subst hc
        exact hl
      · have ho := (set_ne (f := w.objs) hlj).symm.trans ho
        have := h.old l o ho
        exact h.others l o c hl ho ((set_ne (f := w.heap) (show o.ptr ≠ w.fresh by omega)).symm.trans hc)
    · show o.ptr < w.fresh + 1
      by_cases hlj : l = j
      · subst hlj
        simp only [set_self, Option.some.injEq] at ho
        subst ho
        exact Nat.lt_succ_self _
      · have := h.old l o ((set_ne (f := w.objs) hlj).symm.trans ho)
        omega
    · have e : j = i := e
      subst e
      rw [view_none hj]
      simp only [aloneStep, hq, ok_bind, view, set_self]
      rfl
    · have e : j ≠ i := e
      simp only [view, set_ne (f := w.objs) (Ne.symm e)]
      cases ho : w.objs i with
      | none => rfl
      | some o =>
        have := h.old i o ho
        simp only [set_ne (f := w.heap) (show o.ptr ≠ w.fresh by omega)]
  | call j op =>
    simp only [step, bind_eq_ok] at hr
    obtain ⟨o, ho, c, hc, b, hb, q, hq, he⟩ := hr
    cases he
    have ho : w.objs j = some o := by
      unfold obj at ho
      split at ho
      · next hx => cases ho; exact hx
      · cases ho
    have hc : w.heap o.ptr = some c := by
      unfold cell at hc
      split at hc
      · next hx => cases hc; exact hx
      · cases hc
    have hb : w.objs (if k.viaOwner op then c.owner else j) = some b := by
      unfold obj at hb
      split at hb
      · next hx => cases hb; exact hx
      · cases hb
    by_cases hji : j = i
    · subst hji
      obtain ⟨c', hc', hown⟩ := h.own o ho
      rw [hc'] at hc
      cases hc
      have ht : (if k.viaOwner op then c.owner else j) = j := by rw [hown]; exact ite_self _
      rw [ht] at hb ⊢
      rw [ho] at hb
      cases hb
      have hne : ∀ l o' c', l ≠ j → w.objs l = some o' → w.heap o'.ptr = some c' → o'.ptr ≠ o.ptr := by
        intro l o' c'' hl h1 h2 e
        rw [e, hc'] at h2
        cases h2
        exact h.others l o' c hl h1 (e ▸ hc') hown
      refine ⟨⟨fun o' h' => ?_, fun l o' c'' hl h' h2 => ?_, fun l o' h' => ?_⟩, fun _ => ?_, fun e => absurd rfl e⟩
      · simp only [set_self, Option.some.injEq] at h'
        subst h'
        exact ⟨_, set_self, hown⟩
      · have h' := (set_ne (f := w.objs) hl).symm.trans h'
        by_cases hp : o'.ptr = o.ptr
        · exact absurd hp (hne l o' c hl h' (hp ▸ hc'))
        · exact h.others l o' c'' hl h' ((set_ne (f := w.heap) hp).symm.trans h2)
      · by_cases hl : l = j
        · subst hl
          simp only [set_self, Option.some.injEq] at h'
          subst h'
          exact h.old l o ho
        · exact h.old l o' ((set_ne (f := w.objs) hl).symm.trans h')
      · have hv : w.view j = some (o.body, c.opt) := by simp only [view, ho, hc']
        rw [hv]
        simp only [aloneStep, hq, ok_bind, view, set_self]
        rfl
    · have hco := h.others j o c hji ho hc
      generalize ht : (if k.viaOwner op then c.owner else j) = t at hb
      have hti : t ≠ i := by
        rw [← ht]
        split
        · exact hco
        · exact hji
      have hne : ∀ o', w.objs i = some o' → o'.ptr ≠ o.ptr := by
        intro o' h1 e
        obtain ⟨c', h2, h3⟩ := h.own o' h1
        rw [e, hc] at h2
        cases h2
        exact hco h3
      refine ⟨⟨fun o' h' => ?_, fun l o' c' hl h' h2 => ?_, fun l o' h' => ?_⟩, fun e => absurd e hji, fun _ => ?_⟩
      · have h' := (set_ne (f := w.objs) (Ne.symm hti)).symm.trans h'
        obtain ⟨c', h2, h3⟩ := h.own o' h'
        exact ⟨c', (set_ne (hne o' h')).trans h2, h3⟩
      · obtain ⟨o2, h5, h6⟩ : ∃ o2, w.objs l = some o2 ∧ o2.ptr = o'.ptr := by
          by_cases hlt : l = t
          · subst hlt
            simp only [set_self, Option.some.injEq] at h'
            subst h'
            exact ⟨b, hb, rfl⟩
          · exact ⟨o', (set_ne (f := w.objs) hlt).symm.trans h', rfl⟩
        by_cases hp : o'.ptr = o.ptr
        · rw [hp] at h2
          simp only [set_self, Option.some.injEq] at h2
          subst h2
          exact hco
        · exact h.others l o2 c' hl h5 (h6 ▸ (set_ne (f := w.heap) hp).symm.trans h2)
      · by_cases hlt : l = t
        · subst hlt
          simp only [set_self, Option.some.injEq] at h'
          subst h'
          exact h.old l b hb
        · exact h.old l o' ((set_ne (f := w.objs) hlt).symm.trans h')
      · simp only [view, set_ne (f := w.objs) (Ne.symm hti)]
        cases h1 : w.objs i with
        | none => rfl
        | some o' => simp only [set_ne (f := w.heap) (hne o' h1)]
  | destroy j =>
    simp only [step, bind_eq_ok] at hr
    obtain ⟨o, ho, hr⟩ := hr
    have ho : w.objs j = some o := by
      unfold obj at ho
      split at ho
      · next hx => cases ho; exact hx
      · cases ho
    have gone : ∀ hp : Nat → Option (Cell k), (∀ p c, hp p = some c → w.heap p = some c) →
        (∀ o', j ≠ i → w.objs i = some o' → hp o'.ptr = w.heap o'.ptr) →
        Lone i (⟨set w.objs j none, hp, w.fresh⟩ : World k) ∧
          (j = i → view ⟨set w.objs j none, hp, w.fresh⟩ i = none) ∧ (j ≠ i → view ⟨set w.objs j none, hp, w.fresh⟩ i = w.view i) := by
      intro hp h1 h2
      have old : ∀ l o', set w.objs j none l = some o' → l ≠ j ∧ w.objs l = some o' := by
        intro l o' h'
        by_cases hl : l = j
        · subst hl; simp only [set_self] at h'; cases h'
        · exact ⟨hl, (set_ne (f := w.objs) hl).symm.trans h'⟩
      refine ⟨⟨fun o' h' => ?_, fun l o' c hl h' hc => ?_, fun l o' h' => ?_⟩, fun e => ?_, fun e => ?_⟩
      · obtain ⟨g1, g2⟩ := old i o' h'
        obtain ⟨c, g3, g4⟩ := h.own o' g2
        exact ⟨c, (h2 o' (Ne.symm g1) g2).trans g3, g4⟩
      · exact h.others l o' c hl (old l o' h').2 (h1 _ _ hc)
      · exact h.old l o' (old l o' h').2
      · subst e
        simp only [view, set_self]
      · simp only [view, set_ne (f := w.objs) (Ne.symm e)]
        cases g : w.objs i with
        | none => rfl
        | some o' => simp only [h2 o' e g]
    have hal : j = i → aloneStep (w.view i) (.destroy j) = .ok (none, none) := by
      intro e
      subst e
      obtain ⟨c, hc, -⟩ := h.own o ho
      simp only [view, ho, hc]
      rfl
    cases hd : k.deletes o.body with
    | true =>
      simp only [hd, if_true, bind_eq_ok, require_eq_ok] at hr
      obtain ⟨-, hs, he⟩ := hr
      cases he
      obtain ⟨c, hc⟩ := Option.isSome_iff_exists.1 hs
      obtain ⟨g1, g2, g3⟩ := gone (set w.heap o.ptr none) (fun p c' hp => by
        by_cases e : p = o.ptr
        · subst e; simp only [set_self] at hp; cases hp
        · exact (set_ne (f := w.heap) e).symm.trans hp) (fun o' hji h1 => by
        refine set_ne fun e => ?_
        obtain ⟨c', h2, h3⟩ := h.own o' h1
        rw [e, hc] at h2
        cases h2
        exact h.others j o c hji ho hc h3)
      exact ⟨g1, fun e => (hal e).trans (by rw [g2 e]), g3⟩
    | false =>
      simp only [hd, Bool.false_eq_true, if_false] at hr
      cases hr
      obtain ⟨g1, g2, g3⟩ := gone w.heap (fun _ _ e => e) (fun _ _ _ => rfl)
      exact ⟨g1, fun e => (hal e).trans (by rw [g2 e]), g3⟩

theorem about_cons {i : Nat} {op : WOp k} {ops : List (WOp k)} (h : subject op = i) : about i (op :: ops) = op :: about i ops := by
  simp [about, h]

theorem about_skip {i : Nat} {op : WOp k} {ops : List (WOp k)} (h : subject op ≠ i) : about i (op :: ops) = about i ops := by
  simp [about, h]

theorem returned_cons {i : Nat} {op : WOp k} {ops : List (WOp k)} {out : Option k.Out} {outs} (h : subject op = i) :
    returned i (op :: ops) (out :: outs) = out :: returned i ops outs := by
  simp [returned, h]

theorem returned_skip {i : Nat} {op : WOp k} {ops : List (WOp k)} {out : Option k.Out} {outs} (h : subject op ≠ i) :
    returned i (op :: ops) (out :: outs) = returned i ops outs := by
  simp [returned, h]

theorem run_lone {i : Nat} : ∀ {ops : List (WOp k)} {w w' : World k} {outs : List (Option k.Out)}, Lone i w → Uncopied i ops →
    w.run ops = .ok (w', outs) → Lone i w' ∧ aloneRun (w.view i) (about i ops) = .ok (w'.view i, returned i ops outs)
  | [], w, w', outs, h, _, hr => by
    cases hr
    exact ⟨h, rfl⟩
  | op :: ops, w, w', outs, h, hn, hr => by
    simp only [run, bind_eq_ok] at hr
    obtain ⟨r, hr1, s, hs, he⟩ := hr
    cases he
    obtain ⟨h1, h2, h3⟩ := step_lone h (by have := hn op List.mem_cons_self; cases op <;> exact this) hr1
    obtain ⟨g1, g2⟩ := run_lone h1 (fun o ho => hn o (List.mem_cons_of_mem _ ho)) hs
    refine ⟨g1, ?_⟩
    by_cases hi : subject op = i
    · rw [about_cons hi, returned_cons hi]
      simp only [aloneRun, h2 hi, ok_bind, g2]
      rfl
    · rw [about_skip hi, returned_skip hi, ← h3 hi]
      exact g2

end World
end Mpc
