import Verif.Spec.Threads
import Verif.Proofs.Instances

/-
Threads which use different controllers do not meet in the memory of the controllers.
-/
namespace Mpc
open Exec Spec
namespace World
variable {k : Kind} {owner home : Nat → Nat}

/-- objects and optimizers belong to threads: `owner` for objects, `home` for addresses -/
structure Homes (owner home : Nat → Nat) (w : World k) : Prop where
  obj : ∀ i o, w.objs i = some o → home o.ptr = owner i ∧ o.ptr < w.fresh
  cell : ∀ p c, w.heap p = some c → owner c.owner = home p ∧ p < w.fresh

theorem homes_empty : Homes owner home (empty k) :=
  ⟨fun i o h => by simp [empty] at h, fun p c h => by simp [empty] at h⟩

/-- a new address for thread `t` -/
def moved (home : Nat → Nat) (p t : Nat) : Nat → Nat := fun q => if q = p then t else home q

theorem obj_ok {w : World k} {i : Nat} {o : Obj k} : w.obj i = .ok o ↔ w.objs i = some o := by
  unfold obj
  cases w.objs i with
  | none => simp
  | some o => simp

theorem cell_ok {w : World k} {p : Nat} {c : Cell k} : w.cell p = .ok c ↔ w.heap p = some c := by
  unfold cell
  cases w.heap p with
  | none => simp
  | some o => simp

/-- what a step of thread `t` changes and accesses -/
structure Framed (owner home : Nat → Nat) (t : Nat) (w : World k) (op : WOp k) (r : World k) : Prop where
  objs : ∀ i, owner i ≠ t → r.objs i = w.objs i
  heap : ∀ p, p < w.fresh → home p ≠ t → r.heap p = w.heap p
  fresh : w.fresh ≤ r.fresh
  homes : Homes owner (moved home w.fresh t) r
  inObj : ∀ i b, (⟨.obj i, b⟩ : Access) ∈ w.touches op → owner i = t
  inOpt : ∀ p b, (⟨.opt p, b⟩ : Access) ∈ w.touches op → moved home w.fresh t p = t ∧ p < r.fresh
  only : ∀ a ∈ w.touches op, ¬ OfLogger a.loc

theorem step_framed {w : World k} {t : Nat} (h : Homes owner home w) {op : WOp k} (hop : ∀ i ∈ involved op, owner i = t) {r}
    (hs : w.step op = .ok r) : Framed owner home t w op r.1 := by
  have hm : ∀ {p}, p < w.fresh → moved home w.fresh t p = home p := fun hp => if_neg (by omega)
  have keepObj : ∀ {i o}, w.objs i = some o → moved home w.fresh t o.ptr = owner i ∧ o.ptr < w.fresh := fun ho =>
    ⟨(hm (h.obj _ _ ho).2).trans (h.obj _ _ ho).1, (h.obj _ _ ho).2⟩
  have keepCell : ∀ {p c}, w.heap p = some c → owner c.owner = moved home w.fresh t p ∧ p < w.fresh := fun hc =>
    ⟨(h.cell _ _ hc).1.trans (hm (h.cell _ _ hc).2).symm, (h.cell _ _ hc).2⟩
  cases op with
  | create i a =>
    have hi : owner i = t := hop i List.mem_cons_self
    simp only [step, bind_eq_ok] at hs
    obtain ⟨-, -, q, -, hs⟩ := hs
    cases hs
    refine ⟨fun j hj => set_ne (by rintro rfl; exact hj hi), fun p hp _ => set_ne (by omega), Nat.le_succ _,
      ⟨fun j o ho => ?_, fun p c hc => ?_⟩, fun j b hj => ?_, fun p b hp => ?_, fun a ha => ?_⟩
    · by_cases hj : j = i
      · subst hj
        have ho : set w.objs j _ j = some o := ho
        rw [set_self] at ho
        cases ho
        exact ⟨(if_pos rfl).trans hi.symm, Nat.lt_succ_self _⟩
      · have ho : set w.objs i _ j = some o := ho
        rw [set_ne hj] at ho
        exact ⟨(keepObj ho).1, Nat.lt_succ_of_lt (keepObj ho).2⟩
    · by_cases hj : p = w.fresh
      · subst hj
        have hc : set w.heap w.fresh _ w.fresh = some c := hc
        rw [set_self] at hc
        cases hc
        exact ⟨hi.trans (if_pos rfl).symm, Nat.lt_succ_self _⟩
      · have hc : set w.heap w.fresh _ p = some c := hc
        rw [set_ne hj] at hc
        exact ⟨(keepCell hc).1, Nat.lt_succ_of_lt (keepCell hc).2⟩
    · simp [touches] at hj
      rw [hj.1]; exact hi
    · simp [touches] at hp
      rw [hp.1]
      exact ⟨if_pos rfl, Nat.lt_succ_self _⟩
    · simp [touches] at ha
      rcases ha with rfl | rfl <;> exact id
  | copy i j =>
    have hi : owner i = t := hop i (by simp [involved])
    have hj : owner j = t := hop j (by simp [involved])
    simp only [step, bind_eq_ok] at hs
    obtain ⟨o, ho, -, -, -, -, hs⟩ := hs
    cases hs
    rw [obj_ok] at ho
    refine ⟨fun l hl => set_ne (by rintro rfl; exact hl hj), fun p hp _ => rfl, Nat.le_refl _,
      ⟨fun l o' ho' => ?_, fun p c hc => keepCell hc⟩, fun l b hl => ?_, fun p b hp => ?_, fun a ha => ?_⟩
    · by_cases hl : l = j
      · subst hl
        have ho' : set w.objs l _ l = some o' := ho'
        rw [set_self] at ho'
        cases ho'
        exact ⟨((keepObj ho).1.trans hi).trans hj.symm, (keepObj ho).2⟩
      · have ho' : set w.objs j _ l = some o' := ho'
        rw [set_ne hl] at ho'
        exact keepObj ho'
    · simp [touches] at hl
      rcases hl with hl | hl <;> rw [hl.1] <;> assumption
    · simp [touches] at hp
    · simp [touches] at ha
      rcases ha with rfl | rfl <;> exact id
  | assign i j =>
    have hi : owner i = t := hop i (by simp [involved])
    have hj : owner j = t := hop j (by simp [involved])
    simp only [step, bind_eq_ok] at hs
    obtain ⟨o, ho, -, -, -, -, hs⟩ := hs
    cases hs
    rw [obj_ok] at ho
    refine ⟨fun l hl => set_ne (by rintro rfl; exact hl hj), fun p hp _ => rfl, Nat.le_refl _,
      ⟨fun l o' ho' => ?_, fun p c hc => keepCell hc⟩, fun l b hl => ?_, fun p b hp => ?_, fun a ha => ?_⟩
    · by_cases hl : l = j
      · subst hl
        have ho' : set w.objs l _ l = some o' := ho'
        rw [set_self] at ho'
        cases ho'
        exact ⟨((keepObj ho).1.trans hi).trans hj.symm, (keepObj ho).2⟩
      · have ho' : set w.objs j _ l = some o' := ho'
        rw [set_ne hl] at ho'
        exact keepObj ho'
    · simp [touches] at hl
      rcases hl with hl | hl <;> rw [hl.1] <;> assumption
    · simp [touches] at hp
    · simp [touches] at ha
      rcases ha with rfl | rfl <;> exact id
  | call i op =>
    have hi : owner i = t := hop i (by simp [involved])
    simp only [step, bind_eq_ok] at hs
    obtain ⟨o, ho, c, hc, b, hb, q, -, hs⟩ := hs
    cases hs
    rw [obj_ok] at ho hb
    rw [cell_ok] at hc
    have ht : owner (if k.viaOwner op then c.owner else i) = t := by
      cases k.viaOwner op
      · exact hi
      · exact ((h.cell _ _ hc).1.trans (h.obj _ _ ho).1).trans hi
    have hp : home o.ptr = t := (h.obj _ _ ho).1.trans hi
    have e : w.touches (.call i op) = ⟨.obj i, true⟩ :: ⟨.opt o.ptr, true⟩ ::
        (if k.viaOwner op then [⟨.obj c.owner, true⟩] else []) := by
      simp only [touches, ho, hc]
    refine ⟨fun l hl => set_ne (by rintro rfl; exact hl ht), fun p _ hp' => set_ne (by rintro rfl; exact hp' hp),
      Nat.le_refl _, ⟨fun l o' ho' => ?_, fun p c' hc' => ?_⟩, fun l b' hl => ?_, fun p b' hp' => ?_, fun a ha => ?_⟩
    · by_cases hl : l = if k.viaOwner op then c.owner else i
      · subst hl
        have ho' : set w.objs _ _ _ = some o' := ho'
        rw [set_self] at ho'
        cases ho'
        exact (keepObj hb :)
      · have ho' : set w.objs _ _ l = some o' := ho'
        rw [set_ne hl] at ho'
        exact keepObj ho'
    · by_cases hl : p = o.ptr
      · subst hl
        have hc' : set w.heap _ _ _ = some c' := hc'
        rw [set_self] at hc'
        cases hc'
        exact (keepCell hc :)
      · have hc' : set w.heap _ _ p = some c' := hc'
        rw [set_ne hl] at hc'
        exact keepCell hc'
    · rw [e] at hl
      cases hv : k.viaOwner op with
      | false => simp [hv] at hl; rw [hl.1]; exact hi
      | true =>
        rw [hv] at ht
        simp [hv] at hl
        rcases hl with hl | hl <;> rw [hl.1]
        · exact hi
        · exact ht
    · rw [e] at hp'
      have : p = o.ptr := by
        cases hv : k.viaOwner op <;> simp [hv] at hp' <;> exact hp'.1
      subst this
      exact ⟨(keepObj ho).1.trans hi, (keepObj ho).2⟩
    · rw [e] at ha
      cases hv : k.viaOwner op with
      | false =>
        simp [hv] at ha
        rcases ha with rfl | rfl <;> exact id
      | true =>
        simp [hv] at ha
        rcases ha with rfl | rfl | rfl <;> exact id
  | destroy i =>
    have hi : owner i = t := hop i (by simp [involved])
    simp only [step, bind_eq_ok] at hs
    obtain ⟨o, ho, hs⟩ := hs
    rw [obj_ok] at ho
    have hp : home o.ptr = t := (h.obj _ _ ho).1.trans hi
    have hobj : ∀ l o', set w.objs i none l = some o' → w.objs l = some o' := fun l o' ho' => by
      by_cases hl : l = i
      · subst hl; rw [set_self] at ho'; cases ho'
      · rwa [set_ne hl] at ho'
    have e : w.touches (.destroy i) = ⟨.obj i, true⟩ :: (if k.deletes o.body then [⟨.opt o.ptr, true⟩] else []) := by
      simp only [touches, ho]
    cases hd : k.deletes o.body with
    | true =>
      rw [if_pos hd] at hs
      simp only [bind_eq_ok] at hs
      obtain ⟨-, -, hs⟩ := hs
      cases hs
      refine ⟨fun l hl => set_ne (by rintro rfl; exact hl hi), fun p _ hp' => set_ne (by rintro rfl; exact hp' hp),
        Nat.le_refl _, ⟨fun l o' ho' => keepObj (hobj l o' ho'), fun p c' hc' => ?_⟩, fun l b' hl => ?_, fun p b' hp' => ?_,
        fun a ha => ?_⟩
      · by_cases hl : p = o.ptr
        · subst hl
          have hc' : set w.heap _ _ _ = some c' := hc'
          rw [set_self] at hc'
          cases hc'
        · have hc' : set w.heap _ _ p = some c' := hc'
          rw [set_ne hl] at hc'
          exact keepCell hc'
      · rw [e] at hl; simp [hd] at hl; rw [hl.1]; exact hi
      · rw [e] at hp'; simp [hd] at hp'
        rw [hp'.1]
        exact ⟨(keepObj ho).1.trans hi, (keepObj ho).2⟩
      · rw [e] at ha; simp [hd] at ha
        rcases ha with rfl | rfl <;> exact id
    | false =>
      rw [if_neg (by simp [hd])] at hs
      cases hs
      refine ⟨fun l hl => set_ne (by rintro rfl; exact hl hi), fun p _ hp' => rfl,
        Nat.le_refl _, ⟨fun l o' ho' => keepObj (hobj l o' ho'), fun p c' hc' => keepCell hc'⟩, fun l b' hl => ?_,
        fun p b' hp' => ?_, fun a ha => ?_⟩
      · rw [e] at hl; simp [hd] at hl; rw [hl.1]; exact hi
      · rw [e] at hp'; simp [hd] at hp'
      · rw [e] at ha; simp [hd] at ha
        subst ha; exact id

/-- two worlds are the same for some controllers, up to the addresses of their optimizers -/
structure Sim (mine : Nat → Prop) (φ : Nat → Nat → Prop) (w w' : World k) : Prop where
  obj : ∀ i, mine i → (w.objs i = none ∧ w'.objs i = none) ∨
    ∃ o o', w.objs i = some o ∧ w'.objs i = some o' ∧ o.body = o'.body ∧ φ o.ptr o'.ptr
  cell : ∀ p p', φ p p' → p < w.fresh ∧ p' < w'.fresh ∧ w.heap p = w'.heap p' ∧ ∀ c, w.heap p = some c → mine c.owner
  inj : ∀ p p' q q', φ p p' → φ q q' → (p = q ↔ p' = q')

theorem Sim.view {mine : Nat → Prop} {φ : Nat → Nat → Prop} {w w' : World k} (h : Sim mine φ w w') {i : Nat} (hi : mine i) :
    w.view i = w'.view i := by
  rcases h.obj i hi with ⟨h1, h2⟩ | ⟨o, o', h1, h2, h3, h4⟩
  · rw [view_none h1, view_none h2]
  · obtain ⟨-, -, h5, -⟩ := h.cell _ _ h4
    simp only [World.view, h1, h2, h5, h3]

theorem Sim.frame {mine : Nat → Prop} {φ : Nat → Nat → Prop} {w r w' : World k} (h : Sim mine φ w w')
    (h1 : ∀ i, mine i → r.objs i = w.objs i) (h2 : ∀ p p', φ p p' → r.heap p = w.heap p) (h3 : w.fresh ≤ r.fresh) :
    Sim mine φ r w' :=
  ⟨fun i hi => by rw [h1 i hi]; exact h.obj i hi, fun p p' hp => by
    obtain ⟨a, b, c, d⟩ := h.cell p p' hp
    rw [h2 p p' hp]
    exact ⟨by omega, b, c, d⟩, h.inj⟩

/-- replacing an object by one with the same body and corresponding pointer -/
theorem Sim.setObj {mine : Nat → Prop} {φ : Nat → Nat → Prop} {w w' : World k} (h : Sim mine φ w w') (i : Nat)
    {v v' : Option (Obj k)} (hv : (v = none ∧ v' = none) ∨ ∃ o o', v = some o ∧ v' = some o' ∧ o.body = o'.body ∧ φ o.ptr o'.ptr) :
    Sim mine φ { w with objs := set w.objs i v } { w' with objs := set w'.objs i v' } :=
  ⟨fun j hj => by
    by_cases e : j = i
    · subst e
      simp only [set_self]
      exact hv
    · simp only [set_ne e]
      exact h.obj j hj, h.cell, h.inj⟩

/-- replacing an optimizer -/
theorem Sim.setCell {mine : Nat → Prop} {φ : Nat → Nat → Prop} {w w' : World k} (h : Sim mine φ w w') {p p' : Nat}
    (hp : φ p p') {v : Option (Cell k)} (hv : ∀ c, v = some c → mine c.owner) :
    Sim mine φ { w with heap := set w.heap p v } { w' with heap := set w'.heap p' v } :=
  ⟨h.obj, fun q q' hq => by
    obtain ⟨a, b, c, d⟩ := h.cell q q' hq
    refine ⟨a, b, ?_⟩
    by_cases e : q = p
    · have e' := (h.inj _ _ _ _ hq hp).1 e
      subst e e'
      simp only [set_self]
      exact ⟨trivial, hv⟩
    · have e' : q' ≠ p' := fun e' => e ((h.inj _ _ _ _ hq hp).2 e')
      simp only [set_ne e, set_ne e']
      exact ⟨c, d⟩, h.inj⟩

/-- what a simulated step gives -/
structure Step (mine : Nat → Prop) (φ : Nat → Nat → Prop) (w : World k) (r r' : World k × Option k.Out) : Prop where
  out : r.2 = r'.2
  sim : ∃ φ', Sim mine φ' r.1 r'.1 ∧ ∀ p p', φ' p p' → φ p p' ∨ p = w.fresh

/-- both fail in the same way or both succeed -/
def Alike {α : Type} (P : α → α → Prop) : Exec α → Exec α → Prop
  | .ok a, .ok b => P a b
  | .error e, .error e' => e = e'
  | _, _ => False

theorem step_sim {mine : Nat → Prop} {φ : Nat → Nat → Prop} {w w' : World k} (h : Sim mine φ w w') {op : WOp k}
    (hop : ∀ i ∈ involved op, mine i) : Alike (Step mine φ w) (w.step op) (w'.step op) := by
  have none_eq : ∀ {i}, mine i → (w.objs i).isNone = (w'.objs i).isNone := fun hi => by
    rcases h.obj _ hi with ⟨h1, h2⟩ | ⟨o, o', h1, h2, -⟩ <;> rw [h1, h2] <;> rfl
  cases op with
  | create i a =>
    have hi : mine i := hop i List.mem_cons_self
    simp only [step, none_eq hi]
    cases require (w'.objs i).isNone Fault.assertion with
    | error e => exact rfl
    | ok u =>
      simp only [ok_bind]
      cases hb : k.build a with
      | error e => exact rfl
      | ok q =>
        refine ⟨rfl, fun p p' => φ p p' ∨ (p = w.fresh ∧ p' = w'.fresh), ⟨fun j hj => ?_, fun p p' hp => ?_,
          fun p p' q q' hp hq => ?_⟩, fun p p' hp => hp.imp id And.left⟩
        · by_cases e : j = i
          · subst e
            exact .inr ⟨_, _, set_self, set_self, rfl, .inr ⟨rfl, rfl⟩⟩
          · show (set w.objs i _ j = none ∧ set w'.objs i _ j = none) ∨ ∃ o o', set w.objs i _ j = _ ∧ set w'.objs i _ j = _ ∧ _
            rw [set_ne e, set_ne e]
            rcases h.obj j hj with h1 | ⟨o, o', h1, h2, h3, h4⟩
            · exact .inl h1
            · exact .inr ⟨o, o', h1, h2, h3, .inl h4⟩
        · rcases hp with hp | ⟨rfl, rfl⟩
          · obtain ⟨a1, a2, a3, a4⟩ := h.cell p p' hp
            have e1 : p ≠ w.fresh := by omega
            have e2 : p' ≠ w'.fresh := by omega
            refine ⟨Nat.lt_succ_of_lt a1, Nat.lt_succ_of_lt a2, ?_, ?_⟩
            · show set _ _ _ p = set _ _ _ p'
              rw [set_ne e1, set_ne e2, a3]
            · show ∀ c, set _ _ _ p = some c → _
              rw [set_ne e1]
              exact a4
          · refine ⟨Nat.lt_succ_self _, Nat.lt_succ_self _, ?_, ?_⟩
            · show set _ _ _ w.fresh = set _ _ _ w'.fresh
              rw [set_self, set_self]
            · show ∀ c, set _ _ _ w.fresh = some c → _
              rw [set_self]
              rintro c ⟨⟩
              exact hi
        · rcases hp with hp | ⟨rfl, rfl⟩ <;> rcases hq with hq | ⟨rfl, rfl⟩
          · exact h.inj _ _ _ _ hp hq
          · obtain ⟨a1, a2, -⟩ := h.cell p p' hp
            constructor <;> (intro; omega)
          · obtain ⟨a1, a2, -⟩ := h.cell q q' hq
            constructor <;> (intro; omega)
          · simp
  | copy i j =>
    have hi : mine i := hop i (by simp [involved])
    have hj : mine j := hop j (by simp [involved])
    simp only [step, none_eq hj, World.obj]
    rcases h.obj i hi with ⟨h1, h2⟩ | ⟨o, o', h1, h2, h3, h4⟩
    · rw [h1, h2]; exact rfl
    · rw [h1, h2]
      simp only [ok_bind]
      rw [← h3]
      cases require (k.copyable o.body) Fault.assertion with
      | error e => exact rfl
      | ok u =>
        simp only [ok_bind]
        cases require (w'.objs j).isNone Fault.assertion with
        | error e => exact rfl
        | ok u => exact ⟨rfl, φ, h.setObj j (.inr ⟨o, o', rfl, rfl, h3, h4⟩), fun _ _ => .inl⟩
  | assign i j =>
    have hi : mine i := hop i (by simp [involved])
    have hj : mine j := hop j (by simp [involved])
    simp only [step, World.obj]
    rcases h.obj i hi with ⟨h1, h2⟩ | ⟨o, o', h1, h2, h3, h4⟩
    · rw [h1, h2]; exact rfl
    · rw [h1, h2]
      simp only [ok_bind]
      rw [← h3]
      cases require (k.copyable o.body) Fault.assertion with
      | error e => exact rfl
      | ok u =>
        simp only [ok_bind]
        rcases h.obj j hj with ⟨g1, g2⟩ | ⟨q, q', g1, g2, -⟩
        · rw [g1, g2]; exact rfl
        · rw [g1, g2]
          exact ⟨rfl, φ, h.setObj j (.inr ⟨o, o', rfl, rfl, h3, h4⟩), fun _ _ => .inl⟩
  | call i op =>
    have hi : mine i := hop i (by simp [involved])
    simp only [step, World.obj, World.cell]
    rcases h.obj i hi with ⟨h1, h2⟩ | ⟨o, o', h1, h2, h3, h4⟩
    · rw [h1, h2]; exact rfl
    · rw [h1, h2]
      simp only [ok_bind]
      obtain ⟨-, -, h5, h6⟩ := h.cell _ _ h4
      rw [← h5]
      cases hc : w.heap o.ptr with
      | none => exact rfl
      | some c =>
        simp only [ok_bind]
        have ht : mine (if k.viaOwner op then c.owner else i) := by
          cases k.viaOwner op
          · exact hi
          · exact h6 c hc
        generalize (if k.viaOwner op then c.owner else i) = t at ht
        rcases h.obj t ht with ⟨g1, g2⟩ | ⟨q, q', g1, g2, g3, g4⟩
        · rw [g1, g2]; exact rfl
        · rw [g1, g2]
          simp only [ok_bind, g3]
          cases k.step q'.body c.opt op with
          | error e => exact rfl
          | ok s =>
            refine ⟨rfl, φ, ?_, fun _ _ => .inl⟩
            exact (h.setObj t (.inr ⟨{ q with body := s.1 }, { q' with body := s.1 }, rfl, rfl, rfl, g4⟩)).setCell h4
              (v := some { c with opt := s.2.1 }) (by rintro c' ⟨⟩; exact h6 c hc)
  | destroy i =>
    have hi : mine i := hop i (by simp [involved])
    simp only [step, World.obj]
    rcases h.obj i hi with ⟨h1, h2⟩ | ⟨o, o', h1, h2, h3, h4⟩
    · rw [h1, h2]; exact rfl
    · rw [h1, h2]
      simp only [ok_bind]
      obtain ⟨-, -, h5, h6⟩ := h.cell _ _ h4
      rw [← h5, ← h3]
      by_cases hd : k.deletes o.body = true
      · rw [if_pos hd, if_pos hd]
        cases require (w.heap o.ptr).isSome Fault.doubleFree with
        | error e => exact rfl
        | ok u =>
          exact ⟨rfl, φ, (h.setObj i (.inl ⟨rfl, rfl⟩)).setCell h4 (v := none) (by rintro c ⟨⟩), fun _ _ => .inl⟩
      · rw [if_neg hd, if_neg hd]
        exact ⟨rfl, φ, h.setObj i (.inl ⟨rfl, rfl⟩), fun _ _ => .inl⟩

end World
end Mpc
