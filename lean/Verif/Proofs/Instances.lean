import Verif.Spec.Instances

/-
Worlds without copies are families of independent controllers.
-/
namespace Mpc
open Exec Spec
namespace World
variable {k : Kind}

theorem set_self {α : Type} {f : Nat → Option α} {i : Nat} {v : Option α} : set f i v i = v := if_pos rfl
theorem set_ne {α : Type} {f : Nat → Option α} {i j : Nat} {v : Option α} (h : j ≠ i) : set f i v j = f j := if_neg h

/-- every live object has its own optimizer, which points back to it; addresses from `fresh` on are unused -/
structure Apart (w : World k) : Prop where
  own : ∀ i o, w.objs i = some o → ∃ c, w.heap o.ptr = some c ∧ c.owner = i
  unused : ∀ p, w.fresh ≤ p → w.heap p = none

theorem apart_empty : Apart (empty k) := ⟨fun i o h => by simp [empty] at h, fun _ _ => rfl⟩

theorem Apart.view_some {w : World k} (h : Apart w) {i : Nat} {o : Obj k} (ho : w.objs i = some o) :
    ∃ c, w.heap o.ptr = some c ∧ c.owner = i ∧ w.view i = some (o.body, c.opt) := by
  obtain ⟨c, hc, he⟩ := h.own i o ho
  exact ⟨c, hc, he, by simp only [view, ho, hc]⟩

theorem view_none {w : World k} {i : Nat} (h : w.objs i = none) : w.view i = none := by simp only [view, h]

theorem Apart.inj {w : World k} (h : Apart w) {i j : Nat} {o o' : Obj k} (ho : w.objs i = some o) (ho' : w.objs j = some o')
    (hp : o.ptr = o'.ptr) : i = j := by
  obtain ⟨c, hc, he⟩ := h.own i o ho
  obtain ⟨c', hc', he'⟩ := h.own j o' ho'
  rw [hp, hc'] at hc
  cases hc
  rw [← he, ← he']

theorem Apart.lt {w : World k} (h : Apart w) {i : Nat} {o : Obj k} (ho : w.objs i = some o) : o.ptr < w.fresh := by
  obtain ⟨c, hc, -⟩ := h.own i o ho
  by_contra hn
  rw [h.unused _ (by omega)] at hc
  cases hc

/-- a step which is not a copy -/
def plain : WOp k → Prop
  | .copy _ _ => False
  | .assign _ _ => False
  | _ => True

/-- What a step does to the world when nothing is shared: the subject does what it would do alone, everything else is left
as it was. -/
theorem step_apart {w : World k} (h : Apart w) {op : WOp k} (hop : plain op) :
    (∀ e, w.step op = .error e → aloneStep (w.view (subject op)) op = .error e) ∧
    ∀ r, w.step op = .ok r → Apart r.1 ∧ aloneStep (w.view (subject op)) op = .ok (r.1.view (subject op), r.2) ∧
      ∀ j, j ≠ subject op → r.1.view j = w.view j := by
  cases op with
  | copy i j => exact hop.elim
  | assign i j => exact hop.elim
  | create i a =>
    cases hi : w.objs i with
    | some o =>
      obtain ⟨c, hc, -, hv⟩ := h.view_some hi
      have e1 : w.step (.create i a) = .error .assertion := by
        simp only [step, hi, require]; rfl
      have e2 : aloneStep (w.view (subject (.create i a))) (.create i a) = .error .assertion := by
        show aloneStep (w.view i) _ = _
        rw [hv]; rfl
      rw [e1]
      exact ⟨fun e he => by cases he; exact e2, fun r hr => by cases hr⟩
    | none =>
      have hv := view_none hi
      have e1 : w.step (.create i a) = (k.build a >>= fun r => .ok
          (⟨set w.objs i (some ⟨r.1, w.fresh⟩), set w.heap w.fresh (some ⟨r.2, i⟩), w.fresh + 1⟩, none)) := by
        simp only [step, hi, require]; rfl
      have e2 : aloneStep (w.view (subject (.create i a))) (.create i a) = (k.build a >>= fun r => .ok (some r, none)) := by
        show aloneStep (w.view i) _ = _
        rw [hv]; rfl
      rw [e1, e2]
      cases hb : k.build a with
      | error e => exact ⟨fun e he => by cases he; rfl, fun r hr => by cases hr⟩
      | ok q =>
        refine ⟨fun e he => (by cases he), fun r hr => ?_⟩
        cases hr
        refine ⟨⟨fun j o ho => ?_, fun p hp => ?_⟩, ?_, fun j hj => ?_⟩
        · by_cases hj : j = i
          · subst hj
            simp only [set_self, Option.some.injEq] at ho
            subst ho
            exact ⟨_, set_self, rfl⟩
          · simp only [set_ne hj] at ho
            obtain ⟨c, hc, he⟩ := h.own j o ho
            have := h.lt ho
            exact ⟨c, (set_ne (by omega)).trans hc, he⟩
        · have hp : w.fresh + 1 ≤ p := hp
          exact (set_ne (by omega)).trans (h.unused p (by omega))
        · show Except.ok _ = Except.ok (view _ i, _)
          simp only [view, set_self]
        · have hj : j ≠ i := hj
          show view _ j = _
          simp only [view, set_ne hj]
          cases ho : w.objs j with
          | none => rfl
          | some o =>
            have := h.lt ho
            simp only [set_ne (f := w.heap) (show o.ptr ≠ w.fresh by omega)]
  | call i op =>
    cases hi : w.objs i with
    | none =>
      have e1 : w.step (.call i op) = .error .danglingUse := by simp only [step, obj, hi]; rfl
      have e2 : aloneStep (w.view (subject (.call i op))) (.call i op) = .error .danglingUse := by
        show aloneStep (w.view i) _ = _
        rw [view_none hi]; rfl
      rw [e1]
      exact ⟨fun e he => by cases he; exact e2, fun r hr => by cases hr⟩
    | some o =>
      obtain ⟨c, hc, hown, hv⟩ := h.view_some hi
      have e1 : w.step (.call i op) = (k.step o.body c.opt op >>= fun r => .ok
          ({ w with objs := set w.objs i (some { o with body := r.1 }), heap := set w.heap o.ptr (some { c with opt := r.2.1 }) },
            some r.2.2)) := by
        have ht : (if k.viaOwner op then c.owner else i) = i := by rw [hown]; exact ite_self _
        simp only [step, obj, cell, hi, hc, ok_bind, ht]
        rfl
      have e2 : aloneStep (w.view (subject (.call i op))) (.call i op) =
          (k.step o.body c.opt op >>= fun r => .ok (some (r.1, r.2.1), some r.2.2)) := by
        show aloneStep (w.view i) _ = _
        rw [hv]; rfl
      rw [e1, e2]
      cases hb : k.step o.body c.opt op with
      | error e => exact ⟨fun e he => by cases he; rfl, fun r hr => by cases hr⟩
      | ok q =>
        refine ⟨fun e he => (by cases he), fun r hr => ?_⟩
        cases hr
        refine ⟨⟨fun j o' ho => ?_, fun p hp => ?_⟩, ?_, fun j hj => ?_⟩
        · by_cases hj : j = i
          · subst hj
            simp only [set_self, Option.some.injEq] at ho
            subst ho
            exact ⟨_, set_self, hown⟩
          · simp only [set_ne hj] at ho
            obtain ⟨c', hc', he⟩ := h.own j o' ho
            refine ⟨c', (set_ne fun hp => hj (h.inj ho hi hp)).trans hc', he⟩
        · have hp : w.fresh ≤ p := hp
          have := h.lt hi
          exact (set_ne (by omega)).trans (h.unused p hp)
        · show Except.ok _ = Except.ok (view _ i, _)
          simp only [view, set_self]
        · have hj : j ≠ i := hj
          show view _ j = _
          simp only [view, set_ne hj]
          cases ho : w.objs j with
          | none => rfl
          | some o' => simp only [set_ne (f := w.heap) fun hp => hj (h.inj ho hi hp)]
  | destroy i =>
    cases hi : w.objs i with
    | none =>
      have e1 : w.step (.destroy i) = .error .danglingUse := by simp only [step, obj, hi]; rfl
      have e2 : aloneStep (w.view (subject (.destroy (k := k) i))) (.destroy i) = .error .danglingUse := by
        show aloneStep (w.view i) _ = _
        rw [view_none hi]; rfl
      rw [e1]
      exact ⟨fun e he => by cases he; exact e2, fun r hr => by cases hr⟩
    | some o =>
      obtain ⟨c, hc, hown, hv⟩ := h.view_some hi
      have e2 : aloneStep (w.view (subject (.destroy (k := k) i))) (.destroy i) = .ok (none, none) := by
        show aloneStep (w.view i) _ = _
        rw [hv]; rfl
      rw [e2]
      cases hd : k.deletes o.body with
      | true =>
        have e1 : w.step (.destroy i) = .ok ({ w with objs := set w.objs i none, heap := set w.heap o.ptr none }, none) := by
          simp only [step, obj, hi, hc, hd, require, ok_bind]; rfl
        rw [e1]
        refine ⟨fun e he => (by cases he), fun r hr => ?_⟩
        cases hr
        refine ⟨⟨fun j o' ho => ?_, fun p hp => ?_⟩, ?_, fun j hj => ?_⟩
        · by_cases hj : j = i
          · subst hj
            simp only [set_self] at ho
            cases ho
          · simp only [set_ne hj] at ho
            obtain ⟨c', hc', he⟩ := h.own j o' ho
            exact ⟨c', (set_ne fun hp => hj (h.inj ho hi hp)).trans hc', he⟩
        · show set w.heap o.ptr none p = none
          by_cases hpp : p = o.ptr
          · rw [hpp]; exact set_self
          · exact (set_ne hpp).trans (h.unused p hp)
        · show _ = Except.ok (view _ i, _)
          simp only [view, set_self]
        · have hj : j ≠ i := hj
          show view _ j = _
          simp only [view, set_ne hj]
          cases ho : w.objs j with
          | none => rfl
          | some o' => simp only [set_ne (f := w.heap) fun hp => hj (h.inj ho hi hp)]
      | false =>
        have e1 : w.step (.destroy i) = .ok ({ w with objs := set w.objs i none }, none) := by
          simp only [step, obj, hi, hd, ok_bind]; rfl
        rw [e1]
        refine ⟨fun e he => (by cases he), fun r hr => ?_⟩
        cases hr
        refine ⟨⟨fun j o' ho => ?_, h.unused⟩, ?_, fun j hj => ?_⟩
        · by_cases hj : j = i
          · subst hj
            simp only [set_self] at ho
            cases ho
          · simp only [set_ne hj] at ho
            exact h.own j o' ho
        · show _ = Except.ok (view _ i, _)
          simp only [view, set_self]
        · have hj : j ≠ i := hj
          show view _ j = _
          simp only [view, set_ne hj]

theorem noCopies_cons {op : WOp k} {ops : List (WOp k)} (h : NoCopies (op :: ops)) : plain op ∧ NoCopies ops := by
  refine ⟨?_, fun o ho => h o (List.mem_cons_of_mem _ ho)⟩
  have := h op List.mem_cons_self
  cases op <;> trivial

theorem run_apart : ∀ {ops : List (WOp k)} {w w' : World k} {outs : List (Option k.Out)}, Apart w → NoCopies ops →
    w.run ops = .ok (w', outs) →
    Apart w' ∧ ∀ i, aloneRun (w.view i) (about i ops) = .ok (w'.view i, returned i ops outs)
  | [], w, w', outs, h, _, hr => by
    cases hr
    exact ⟨h, fun _ => rfl⟩
  | op :: ops, w, w', outs, h, hn, hr => by
    obtain ⟨hp, hn⟩ := noCopies_cons hn
    simp only [run, bind_eq_ok] at hr
    obtain ⟨r, hr1, s, hs, he⟩ := hr
    cases he
    obtain ⟨ha, hal, hfr⟩ := (step_apart h hp).2 r hr1
    obtain ⟨ha', ih⟩ := run_apart ha hn hs
    refine ⟨ha', fun i => ?_⟩
    by_cases hi : subject op = i
    · subst hi
      have e1 : about (subject op) (op :: ops) = op :: about (subject op) ops := by simp [about]
      have e2 : returned (subject op) (op :: ops) (r.2 :: s.2) = r.2 :: returned (subject op) ops s.2 := by simp [returned]
      rw [e1, e2]
      simp only [aloneRun, hal, ok_bind, ih]
      rfl
    · have e1 : about i (op :: ops) = about i ops := by simp [about, hi]
      have e2 : returned i (op :: ops) (r.2 :: s.2) = returned i ops s.2 := by simp [returned, hi]
      rw [e1, e2, ← hfr i (Ne.symm hi)]
      exact ih i

theorem run_total : ∀ {ops : List (WOp k)} {w : World k}, Apart w → NoCopies ops →
    (∀ i, ∃ q, aloneRun (w.view i) (about i ops) = .ok q) → ∃ q, w.run ops = .ok q
  | [], w, _, _, _ => ⟨_, rfl⟩
  | op :: ops, w, h, hn, ht => by
    obtain ⟨hp, hn⟩ := noCopies_cons hn
    have e1 : about (subject op) (op :: ops) = op :: about (subject op) ops := by simp [about]
    obtain ⟨q, hq⟩ := ht (subject op)
    rw [e1] at hq
    simp only [aloneRun, bind_eq_ok] at hq
    obtain ⟨s, hs, t, htt, -⟩ := hq
    cases hw : w.step op with
    | error e =>
      have := (step_apart h hp).1 e hw
      rw [hs] at this
      cases this
    | ok r =>
      obtain ⟨ha, hal, hfr⟩ := (step_apart h hp).2 r hw
      obtain ⟨q, hq⟩ := run_total (ops := ops) ha hn fun i => by
        by_cases hi : subject op = i
        · subst hi
          rw [hs] at hal
          cases hal
          exact ⟨_, htt⟩
        · obtain ⟨q, hq⟩ := ht i
          have e1 : about i (op :: ops) = about i ops := by simp [about, hi]
          rw [e1] at hq
          rw [hfr i (Ne.symm hi)]
          exact ⟨q, hq⟩
      exact ⟨(q.1, r.2 :: q.2), by simp only [run, hw, ok_bind, hq]; rfl⟩

/-! ### steps that run -/

theorem step_create {w : World k} {i : Nat} {a : k.Args} {q} (hi : w.objs i = none) (hb : k.build a = .ok q) :
    w.step (.create i a) =
      .ok (⟨set w.objs i (some ⟨q.1, w.fresh⟩), set w.heap w.fresh (some ⟨q.2, i⟩), w.fresh + 1⟩, none) := by
  simp only [step, hi, require, hb, ok_bind]; rfl

theorem step_copy {w : World k} {i j : Nat} {o : Obj k} (hc : k.copyable o.body = true) (hi : w.objs i = some o)
    (hj : w.objs j = none) : w.step (.copy i j) = .ok ({ w with objs := set w.objs j (some o) }, none) := by
  simp only [step, obj, hi, hj, hc, require, ok_bind]; rfl

theorem step_call {w : World k} {i : Nat} {op : k.Op} {o : Obj k} {c : Cell k} {r} (hi : w.objs i = some o)
    (hc : w.heap o.ptr = some c) (hv : k.viaOwner op = false) (hr : k.step o.body c.opt op = .ok r) :
    w.step (.call i op) = .ok (⟨set w.objs i (some { o with body := r.1 }),
      set w.heap o.ptr (some { c with opt := r.2.1 }), w.fresh⟩, some r.2.2) := by
  simp only [step, obj, cell, hi, hc, ok_bind, hv, if_neg Bool.false_ne_true, hr]; rfl

theorem step_call_dangling {w : World k} {i : Nat} {op : k.Op} {o : Obj k} (hi : w.objs i = some o)
    (hc : w.heap o.ptr = none) : w.step (.call i op) = .error .danglingUse := by
  simp only [step, obj, cell, hi, hc, ok_bind]; rfl

theorem step_destroy {w : World k} {i : Nat} {o : Obj k} {c : Cell k} (hd : k.deletes o.body = true) (hi : w.objs i = some o)
    (hc : w.heap o.ptr = some c) :
    w.step (.destroy i) = .ok ({ w with objs := set w.objs i none, heap := set w.heap o.ptr none }, none) := by
  simp only [step, obj, hi, hc, hd, require, ok_bind]; rfl

theorem step_destroy_twice {w : World k} {i : Nat} {o : Obj k} (hd : k.deletes o.body = true) (hi : w.objs i = some o)
    (hc : w.heap o.ptr = none) : w.step (.destroy i) = .error .doubleFree := by
  simp only [step, obj, hi, hc, hd, require, ok_bind]; rfl

theorem step_destroy_keeps {w : World k} {i : Nat} {o : Obj k} (hd : k.deletes o.body = false) (hi : w.objs i = some o) :
    w.step (.destroy i) = .ok ({ w with objs := set w.objs i none }, none) := by
  simp only [step, obj, hi, hd, ok_bind]; rfl

theorem run_snoc {ops : List (WOp k)} {op : WOp k} : ∀ {w w' w'' : World k} {outs out}, w.run ops = .ok (w', outs) →
    w'.step op = .ok (w'', out) → w.run (ops ++ [op]) = .ok (w'', outs ++ [out]) := by
  induction ops with
  | nil =>
    intro w w' w'' outs out h hs
    cases h
    simp only [List.nil_append, run, hs, ok_bind]; rfl
  | cons a ops ih =>
    intro w w' w'' outs out h hs
    simp only [run, bind_eq_ok] at h
    obtain ⟨r, hr, s, hs', he⟩ := h
    cases he
    simp only [List.cons_append, run, hr, ok_bind, ih hs' hs]
    rfl

theorem run_snoc_error {ops : List (WOp k)} {op : WOp k} : ∀ {w w' : World k} {outs e}, w.run ops = .ok (w', outs) →
    w'.step op = .error e → w.run (ops ++ [op]) = .error e := by
  induction ops with
  | nil =>
    intro w w' outs e h hs
    cases h
    simp only [List.nil_append, run, hs]; rfl
  | cons a ops ih =>
    intro w w' outs e h hs
    simp only [run, bind_eq_ok] at h
    obtain ⟨r, hr, s, hs', he⟩ := h
    cases he
    simp only [List.cons_append, run, hr, ok_bind, ih hs' hs]
    rfl

/-! ### memory -/

/-- every allocated optimizer belongs to a live object -/
def Owned (w : World k) : Prop := ∀ p c, w.heap p = some c → ∃ o, w.objs c.owner = some o ∧ o.ptr = p

theorem step_owned {w : World k} (h : Apart w) (ho : Owned w) (hd : ∀ b, k.deletes b = true) {op : WOp k} (hop : plain op) {r}
    (hr : w.step op = .ok r) : Owned r.1 := by
  cases op with
  | copy i j => exact hop.elim
  | assign i j => exact hop.elim
  | create i a =>
    simp only [step, bind_eq_ok, require_eq_ok] at hr
    obtain ⟨_, hn, q, hq, hr⟩ := hr
    cases hr
    intro p c hp
    by_cases hf : p = w.fresh
    · subst hf
      simp only [set_self, Option.some.injEq] at hp
      subst hp
      exact ⟨_, set_self, rfl⟩
    · simp only [set_ne hf] at hp
      obtain ⟨o, h1, h2⟩ := ho p c hp
      refine ⟨o, (set_ne ?_).trans h1, h2⟩
      rintro hi
      rw [hi] at h1
      rw [h1] at hn
      cases hn
  | call i op =>
    cases hi : w.objs i with
    | none => simp only [step, obj, hi] at hr; cases hr
    | some o =>
      obtain ⟨c, hc, hown, -⟩ := h.view_some hi
      have ht : (if k.viaOwner op then c.owner else i) = i := by rw [hown]; exact ite_self _
      simp only [step, obj, cell, hi, hc, ok_bind, ht, bind_eq_ok] at hr
      obtain ⟨q, hq, hr⟩ := hr
      cases hr
      intro p c' hp
      by_cases hf : p = o.ptr
      · subst hf
        simp only [set_self, Option.some.injEq] at hp
        subst hp
        rw [hown]
        exact ⟨_, set_self, rfl⟩
      · simp only [set_ne hf] at hp
        obtain ⟨o', h1, h2⟩ := ho p c' hp
        refine ⟨o', (set_ne fun e => hf ?_).trans h1, h2⟩
        rw [e, hi] at h1
        cases h1
        exact h2.symm
  | destroy i =>
    cases hi : w.objs i with
    | none => simp only [step, obj, hi] at hr; cases hr
    | some o =>
      obtain ⟨c, hc, hown, -⟩ := h.view_some hi
      rw [step_destroy (hd _) hi hc] at hr
      cases hr
      intro p c' hp
      by_cases hf : p = o.ptr
      · subst hf
        simp only [set_self] at hp
        cases hp
      · simp only [set_ne hf] at hp
        obtain ⟨o', h1, h2⟩ := ho p c' hp
        refine ⟨o', (set_ne fun e => hf ?_).trans h1, h2⟩
        rw [e, hi] at h1
        cases h1
        exact h2.symm

theorem run_owned (hd : ∀ b, k.deletes b = true) : ∀ {ops : List (WOp k)} {w w' : World k} {outs}, Apart w → Owned w → NoCopies ops →
    w.run ops = .ok (w', outs) → Owned w'
  | [], w, w', outs, _, ho, _, hr => by cases hr; exact ho
  | op :: ops, w, w', outs, h, ho, hn, hr => by
    obtain ⟨hp, hn⟩ := noCopies_cons hn
    simp only [run, bind_eq_ok] at hr
    obtain ⟨r, hr1, s, hs, he⟩ := hr
    cases he
    exact run_owned hd ((step_apart h hp).2 r hr1).1 (step_owned h ho hd hp hr1) hn hs

/-- nothing is ever released: every address below `fresh` is in use -/
def Full (w : World k) : Prop := ∀ p, (w.heap p).isSome = true ↔ p < w.fresh

theorem step_full {w : World k} (h : Full w) (hd : ∀ b, k.deletes b = false) {op : WOp k} {r} (hr : w.step op = .ok r) :
    Full r.1 ∧ r.1.fresh = w.fresh + constructed [op] := by
  cases op with
  | copy i j =>
    simp only [step, bind_eq_ok, require_eq_ok] at hr
    obtain ⟨_, -, o, -, _, -, hr⟩ := hr
    cases hr
    exact ⟨h, rfl⟩
  | assign i j =>
    simp only [step, bind_eq_ok, require_eq_ok] at hr
    obtain ⟨_, -, o, -, _, -, hr⟩ := hr
    cases hr
    exact ⟨h, rfl⟩
  | create i a =>
    simp only [step, bind_eq_ok, require_eq_ok] at hr
    obtain ⟨_, hn, q, hq, hr⟩ := hr
    cases hr
    refine ⟨fun p => ?_, rfl⟩
    show (set w.heap w.fresh _ p).isSome = true ↔ p < w.fresh + 1
    by_cases hf : p = w.fresh
    · subst hf
      simp only [set_self, Option.isSome_some, true_iff]; omega
    · rw [set_ne hf, h p]; omega
  | call i op =>
    simp only [step, bind_eq_ok] at hr
    obtain ⟨o, ho, c, hc, b, hb, q, hq, hr⟩ := hr
    cases hr
    refine ⟨fun p => ?_, rfl⟩
    show (set w.heap o.ptr _ p).isSome = true ↔ p < w.fresh
    by_cases hf : p = o.ptr
    · subst hf
      have : (w.heap o.ptr).isSome = true := by
        unfold cell at hc
        split at hc
        · rename_i e; rw [e]; rfl
        · cases hc
      simp only [set_self, Option.isSome_some, true_iff]
      exact (h _).1 this
    · rw [set_ne hf]; exact h p
  | destroy i =>
    simp only [step, hd, bind_eq_ok, if_neg Bool.false_ne_true] at hr
    obtain ⟨o, ho, hr⟩ := hr
    cases hr
    exact ⟨h, rfl⟩

theorem run_full (hd : ∀ b, k.deletes b = false) : ∀ {ops : List (WOp k)} {w w' : World k} {outs}, Full w →
    w.run ops = .ok (w', outs) → Full w' ∧ w'.fresh = w.fresh + constructed ops
  | [], w, w', outs, h, hr => by cases hr; exact ⟨h, rfl⟩
  | op :: ops, w, w', outs, h, hr => by
    simp only [run, bind_eq_ok] at hr
    obtain ⟨r, hr1, s, hs, he⟩ := hr
    cases he
    obtain ⟨h1, e1⟩ := step_full h hd hr1
    obtain ⟨h2, e2⟩ := run_full hd h1 hs
    refine ⟨h2, ?_⟩
    have : constructed (op :: ops) = constructed [op] + constructed ops := by
      simp only [constructed, List.countP_cons, List.countP_nil]; omega
    rw [e2, e1, this]
    omega

end World
end Mpc
