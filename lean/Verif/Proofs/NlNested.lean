import Verif.Spec.NlNested
import Verif.Proofs.NlUnruly

/-
The controller depends on its user functions through their answers only.
-/
namespace Mpc
open Exec NlSpec
set_option linter.unusedSectionVars false
variable {d : Dims} {K : Type} {σ ρ α X L : Type}

/-- the same but for what is remembered, which is related -/
def Alike (R : σ → ρ → Prop) (a : X × σ × L) (b : X × ρ × L) : Prop := a.1 = b.1 ∧ R a.2.1 b.2.1 ∧ a.2.2 = b.2.2

theorem Alike.mk {R : σ → ρ → Prop} {x : X} {l : L} {s : σ} {t : ρ} (h : R s t) : Alike R (x, s, l) (x, t, l) := ⟨rfl, h, rfl⟩

/-- functions which answer alike from related memories -/
def Answers (R : σ → ρ → Prop) (f : Insider d K σ) (g : Insider d K ρ) : Prop :=
  ∀ V s t c, R s t → (f V s c).2 = (g V t c).2 ∧ R (f V s c).1 (g V t c).1

variable {R : σ → ρ → Prop} {f : Insider d K σ} {g : Insider d K ρ}

theorem Prog.attemptWith_alike (h : Answers R f g) (V : NlView K) (p : Prog d K α) : ∀ {s t}, R s t →
    Alike R (p.attemptWith (f V) s) (p.attemptWith (g V) t) := by
  induction p with
  | done r => intro s t hR; exact .mk hR
  | ask c k ih =>
    intro s t hR
    obtain ⟨h1, h2⟩ := h V s t c hR
    unfold Prog.attemptWith
    rcases hf : f V s c with ⟨s', a⟩
    rcases hg : g V t c with ⟨t', b⟩
    rw [hf, hg] at h1 h2
    dsimp only at h1 h2
    subst h1
    cases a with
    | none => exact .mk h2
    | some a =>
      obtain ⟨e1, e2, e3⟩ := ih a h2
      exact ⟨e1, e2, congrArg _ e3⟩

namespace NlMpc
variable [Field K] [LinearOrder K] [IsStrictOrderedRing K]

theorem reportW_alike (h : Answers R f g) (m : NlMpc d K) (call : NlSolverCall K) (x0 z : Vec K) (value : Ext K) (code : Int) (feas : Bool)
    (junk : Nat → K) {s t} (hR : R s t) :
    Alike R (reportW f m call x0 z value code feas junk s) (reportW g m call x0 z value code feas junk t) := by
  unfold reportW
  cases hl : leave m x0 z junk with
  | error e => exact .mk hR
  | ok r =>
    dsimp only
    obtain ⟨e1, e2, e3⟩ := Prog.attemptWith_alike h r.1.o.view (m.acceptP x0 value code feas junk) hR
    rcases h1 : (m.acceptP x0 value code feas junk).attemptWith (f r.1.o.view) s with ⟨a, s', l⟩
    rcases h2 : (m.acceptP x0 value code feas junk).attemptWith (g r.1.o.view) t with ⟨b, t', l'⟩
    rw [h1, h2] at e1 e2 e3
    dsimp only at e1 e2 e3
    subst e1 e3
    rcases a with (_ | _) | _ <;> exact .mk e2

theorem checkW_alike (h : Answers R f g) (w : NlWork K) (m : NlMpc d K) (call : NlSolverCall K) (x0 z : Vec K) (value : Ext K) (code : Int)
    (junk : Nat → K) {s t} (hR : R s t) :
    Alike R (checkW f w m call x0 z value code junk s) (checkW g w m call x0 z value code junk t) := by
  unfold checkW
  dsimp only
  have key := Prog.attemptWith_alike h ({ m.o with optVector := z, first := false } : NlOpt K).view (m.s.con.isFeasibleP m.s.mp m.s.M z) hR
  revert key
  generalize Prog.attemptWith (f _) (m.s.con.isFeasibleP m.s.mp m.s.M z) s = q
  generalize Prog.attemptWith (g _) (m.s.con.isFeasibleP m.s.mp m.s.M z) t = r
  obtain ⟨a, s', l⟩ := q
  obtain ⟨b, t', l'⟩ := r
  rintro ⟨e1, e2, e3⟩
  dsimp only at e1 e2 e3
  subst e1 e3
  rcases a with (_ | gg) | _
  · exact .mk e2
  · obtain ⟨a1, a2, a3⟩ := reportW_alike h { m with s := { m.s with con := gg.2 }, o := { m.o with optVector := z, first := false } } call x0 z
      value code gg.1 junk e2
    exact ⟨a1, a2, congrArg (l ++ ·) a3⟩
  · exact .mk e2

theorem searchW_alike (h : Answers R f g) (w : NlWork K) (m : NlMpc d K) (call : NlSolverCall K) (x0 : Vec K) (cs : List (NlCallback K))
    (oc : NlOutcome K) (junk : Nat → K) {s t} (hR : R s t) :
    Alike R (searchW f w m call x0 cs oc junk s) (searchW g w m call x0 cs oc junk t) := by
  unfold searchW
  obtain ⟨e1, e2, e3⟩ := Prog.attemptWith_alike h m.o.view (callbacksP m.o m.s cs) hR
  rcases h1 : (callbacksP m.o m.s cs).attemptWith (f m.o.view) s with ⟨a, s', l⟩
  rcases h2 : (callbacksP m.o m.s cs).attemptWith (g m.o.view) t with ⟨b, t', l'⟩
  rw [h1, h2] at e1 e2 e3
  dsimp only at e1 e2 e3
  subst e1 e3
  rcases a with (_ | st) | _
  · exact .mk e2
  · cases oc with
    | threw => exact .mk e2
    | answered z value code b =>
      obtain ⟨a1, a2, a3⟩ := checkW_alike h w { m with s := st } call x0 z value code junk e2
      exact ⟨a1, a2, congrArg (l ++ ·) a3⟩
  · exact .mk e2

theorem optimizeW_alike (h : Answers R f g) (w : NlWork K) (m : NlMpc d K) (x0 u0 : Vec K) (cs : List (NlCallback K)) (oc : NlOutcome K)
    (junk : Nat → K) {s t} (hR : R s t) : Alike R (m.optimizeW f w x0 u0 cs oc junk s) (m.optimizeW g w x0 u0 cs oc junk t) := by
  unfold optimizeW
  generalize (do let m ← m.onState (.measure x0); let p ← m.o.prepare d m.s.mp junk x0 u0; return (m, p) : Exec (NlMpc d K × Vec K × Vec K)) = e
  rcases e with _ | ⟨m1, p⟩
  · exact .mk hR
  · exact searchW_alike h w _ _ x0 cs oc junk hR

theorem stepW_alike (h : Answers R f g) (w : NlWork K) (m : NlMpc d K) (op : NlCall d K) {s t} (hR : R s t) :
    Alike R (m.stepW f w op s) (m.stepW g w op t) := by
  cases op with
  | optimize x0 u0 cs oc junk =>
    obtain ⟨e1, e2, e3⟩ := optimizeW_alike h w m x0 u0 cs oc junk hR
    refine ⟨?_, e2, e3⟩
    show Except.map _ _ = Except.map _ _
    rw [e1]
  | _ => exact .mk hR

theorem runW_alike (h : Answers R f g) (junk : Nat → K) (dyn : Bool) (ops : List (NlCall d K × NlWork K)) {s t} (hR : R s t) :
    Alike R (runW f s junk dyn ops) (runW g t junk dyn ops) := by
  induction ops using List.reverseRecOn with
  | nil => exact .mk hR
  | append_singleton ops op ih =>
    obtain ⟨e1, e2, e3⟩ := ih
    rcases h1 : runW f s junk dyn ops with ⟨a, s', l⟩
    rcases h2 : runW g t junk dyn ops with ⟨b, t', l'⟩
    rw [h1, h2] at e1 e2 e3
    dsimp only at e1 e2 e3
    subst e1 e3
    rcases a with e | ⟨m, outs, es⟩
    · have a1 : runW f s junk dyn (ops ++ [op]) = (.error e, s', l) := by
        unfold runW at h1 ⊢; rw [List.foldl_append, h1]; rfl
      have a2 : runW g t junk dyn (ops ++ [op]) = (.error e, t', l) := by
        unfold runW at h2 ⊢; rw [List.foldl_append, h2]; rfl
      rw [a1, a2]
      exact .mk e2
    · rw [runW_snoc f s h1, runW_snoc g t h2]
      obtain ⟨b1, b2, b3⟩ := stepW_alike h op.2 m op.1 e2
      exact ⟨(by rw [b1]), b2, (by rw [b3])⟩

/-- what links memories and calls, one call at a time -/
structure Links (f : Insider d K σ) (P : σ → List (UserCall d K × Bool) → σ → Prop) : Prop where
  refl : ∀ s, P s [] s
  app : ∀ {s s' s'' l l'}, P s l s' → P s' l' s'' → P s (l ++ l') s''
  one : ∀ V s c, P s [(c, (f V s c).2.isNone)] (f V s c).1

variable {P : σ → List (UserCall d K × Bool) → σ → Prop}

theorem attemptWith_links (h : Links f P) (V : NlView K) (p : Prog d K α) : ∀ s, P s (p.attemptWith (f V) s).2.2 (p.attemptWith (f V) s).2.1 := by
  induction p with
  | done r => intro s; exact h.refl s
  | ask c q ih =>
    intro s
    have h1 := h.one V s c
    unfold Prog.attemptWith
    rcases hf : f V s c with ⟨s1, o⟩
    rw [hf] at h1
    cases o with
    | none => exact h1
    | some a => exact h.app h1 (ih a s1)

theorem reportW_links (h : Links f P) (m : NlMpc d K) (call : NlSolverCall K) (x0 z : Vec K) (value : Ext K) (code : Int) (feas : Bool)
    (junk : Nat → K) (s : σ) : P s (reportW f m call x0 z value code feas junk s).2.2 (reportW f m call x0 z value code feas junk s).2.1 := by
  unfold reportW
  cases leave m x0 z junk with
  | error e => exact h.refl s
  | ok r =>
    dsimp only
    have h1 := attemptWith_links h r.1.o.view (m.acceptP x0 value code feas junk) s
    rcases hq : (m.acceptP x0 value code feas junk).attemptWith (f r.1.o.view) s with ⟨(_ | _) | _, s', l⟩ <;> rw [hq] at h1 <;> exact h1

theorem checkW_links (h : Links f P) (w : NlWork K) (m : NlMpc d K) (call : NlSolverCall K) (x0 z : Vec K) (value : Ext K) (code : Int)
    (junk : Nat → K) (s : σ) : P s (checkW f w m call x0 z value code junk s).2.2 (checkW f w m call x0 z value code junk s).2.1 := by
  unfold checkW
  dsimp only
  have h1 := attemptWith_links h ({ m.o with optVector := z, first := false } : NlOpt K).view (m.s.con.isFeasibleP m.s.mp m.s.M z) s
  revert h1
  generalize Prog.attemptWith (f _) (m.s.con.isFeasibleP m.s.mp m.s.M z) s = q
  obtain ⟨(_ | g) | _, s', l⟩ := q <;> intro h1
  · exact h1
  · exact h.app h1 (reportW_links h ..)
  · exact h1

theorem optimizeW_links (h : Links f P) (w : NlWork K) (m : NlMpc d K) (x0 u0 : Vec K) (cs : List (NlCallback K)) (oc : NlOutcome K)
    (junk : Nat → K) (s : σ) : P s (m.optimizeW f w x0 u0 cs oc junk s).2.2 (m.optimizeW f w x0 u0 cs oc junk s).2.1 := by
  unfold optimizeW
  generalize (do let m ← m.onState (.measure x0); let p ← m.o.prepare d m.s.mp junk x0 u0; return (m, p) : Exec (NlMpc d K × Vec K × Vec K)) = e
  rcases e with _ | ⟨m1, p⟩
  · exact h.refl s
  dsimp only
  unfold searchW
  dsimp only
  generalize { m1.o with optVector := p.1 } = o
  have h1 := attemptWith_links h o.view (callbacksP o m1.s cs) s
  rcases hq : (callbacksP o m1.s cs).attemptWith (f o.view) s with ⟨(_ | st) | _, s', l⟩ <;> rw [hq] at h1
  · exact h1
  · cases oc with
    | threw => exact h1
    | answered z v k t => exact h.app h1 (checkW_links h ..)
  · exact h1

/-- what links memories and calls, one call at a time, links them over a whole history -/
theorem runW_links (h : Links f P) (junk : Nat → K) (dyn : Bool) (ops : List (NlCall d K × NlWork K)) (s : σ) :
    P s (runW f s junk dyn ops).2.2 (runW f s junk dyn ops).2.1 := by
  induction ops using List.reverseRecOn with
  | nil => exact h.refl s
  | append_singleton ops op ih =>
    rcases hq : runW f s junk dyn ops with ⟨a, s1, l1⟩
    rw [hq] at ih
    rcases a with er | ⟨m1, outs1, es1⟩
    · have : runW f s junk dyn (ops ++ [op]) = (.error er, s1, l1) := by
        unfold runW at hq ⊢
        rw [List.foldl_append, hq]
        rfl
      rw [this]
      exact ih
    · rw [runW_snoc f s hq]
      refine h.app ih ?_
      rcases op with ⟨op, w⟩
      cases op with
      | optimize x0 u0 cs oc junk => exact optimizeW_links h w m1 x0 u0 cs oc junk s1
      | _ => exact h.refl s1

end NlMpc

/-! ### inner controllers -/

variable {k : Kind} {τ β : Type}

namespace World

theorem run_append {w w' w'' : World k} {ops ops' : List (WOp k)} : ∀ {outs outs' : List (Option k.Out)}, w.run ops = .ok (w', outs) →
    w'.run ops' = .ok (w'', outs') → w.run (ops ++ ops') = .ok (w'', outs ++ outs') := by
  induction ops generalizing w with
  | nil => intro outs outs' h h'; cases h; exact h'
  | cons op ops ih =>
    intro outs outs' h h'
    simp only [run, bind_eq_ok] at h
    obtain ⟨r, h1, s, h2, h3⟩ := h
    cases h3
    have := ih h2 h'
    simp only [List.cons_append, run, h1, ok_bind, this]
    rfl

end World

theorem Routine.exec_goes {p : Routine k β} : ∀ {w w' : World k} {b : β} {l : List (WOp k × Option k.Out)},
    p.exec w = .ok (b, w', l) ↔ Goes p w l b w' := by
  induction p with
  | done b0 =>
    intro w w' b l
    constructor
    · intro h; cases h; exact ⟨rfl, rfl, rfl⟩
    · rintro ⟨rfl, rfl, rfl⟩; rfl
  | act op next ih =>
    intro w w' b l
    constructor
    · intro h
      simp only [exec, bind_eq_ok] at h
      obtain ⟨r, h1, q, h2, h3⟩ := h
      cases h3
      exact ⟨r.2, r.1, q.2.2, rfl, h1, (ih _).1 h2⟩
    · rintro ⟨o, w1, l', rfl, h1, h2⟩
      have := (ih _).2 h2
      simp only [exec, h1, ok_bind, this]
      rfl

theorem goes_run {p : Routine k β} : ∀ {w w' : World k} {b : β} {l : List (WOp k × Option k.Out)}, Goes p w l b w' →
    w.run (l.map Prod.fst) = .ok (w', l.map Prod.snd) := by
  induction p with
  | done b0 => rintro w w' b l ⟨rfl, rfl, rfl⟩; rfl
  | act op next ih =>
    rintro w w' b l ⟨o, w1, l', rfl, h1, h2⟩
    have := ih _ h2
    simp only [List.map_cons, World.run, h1, ok_bind, this]
    rfl

/-! ### what is done with them -/

variable {f : Nested d K k τ}

theorem did_append {l l' : List (UserCall d K × Bool)} : ∀ {w w' w'' : World k} {t t' t'' : τ} {p p' : List (WOp k × Option k.Out)},
    Did f w t l p w' t' → Did f w' t' l' p' w'' t'' → Did f w t (l ++ l') (p ++ p') w'' t'' := by
  induction l with
  | nil => rintro w w' w'' t t' t'' p p' ⟨rfl, rfl, rfl⟩ h; exact h
  | cons q l ih =>
    rintro w w' w'' t t' t'' p p' ⟨V, r, w1, p1, p2, h1, h2, rfl, h3⟩ h
    exact ⟨V, r, w1, p1, p2 ++ p', h1, h2, by rw [List.append_assoc], ih h3 h⟩

theorem did_run {l : List (UserCall d K × Bool)} : ∀ {w w' : World k} {t t' : τ} {p : List (WOp k × Option k.Out)},
    Did f w t l p w' t' → w.run (p.map Prod.fst) = .ok (w', p.map Prod.snd) := by
  induction l with
  | nil => rintro w w' t t' p ⟨rfl, rfl, rfl⟩; rfl
  | cons q l ih =>
    rintro w w' t t' p ⟨V, r, w1, p1, p2, h1, h2, rfl, h3⟩
    rw [List.map_append, List.map_append]
    exact World.run_append (goes_run h1) (ih h3)

/-- from one memory to the other with these calls -/
def Went (f : Nested d K k τ) (s : Exec (Inner k τ)) (l : List (UserCall d K × Bool)) (s' : Exec (Inner k τ)) : Prop :=
  ∀ i', s' = .ok i' → ∃ i p, s = .ok i ∧ i'.past = i.past ++ p ∧ Did f i.world i.own l p i'.world i'.own

theorem went : NlMpc.Links f.insider (Went f) where
  refl s i h := ⟨i, [], h, by simp, rfl, rfl, rfl⟩
  app h h' i' e := by
    obtain ⟨i, p, e1, h1, h2⟩ := h' i' e
    obtain ⟨i0, p0, e0, h3, h4⟩ := h i e1
    exact ⟨i0, p0 ++ p, e0, by rw [h1, h3, List.append_assoc], did_append h4 h2⟩
  one V s c i' e := by
    rcases s with er | i
    · cases e
    · unfold Nested.insider at e ⊢
      dsimp only at e ⊢
      rcases hx : (f V i.own c).exec i.world with er | ⟨r, w, l⟩
      · rw [hx] at e; cases e
      · rw [hx] at e
        cases e
        exact ⟨i, l, rfl, rfl, V, r, w, l, [], Routine.exec_goes.1 hx, rfl, by simp, rfl, rfl, rfl⟩

end Mpc
