import Verif.Proofs.Pointer
import Verif.Props.Copies
import Verif.Props.Mixed

/-
C139 in programs which also have linear controllers, and nonlinear ones of other dimensions.
-/
namespace Mpc.Props
open Mpc.Spec Mpc.NlSpec Exec World
set_option linter.unusedSectionVars false

section
variable {ι : Type} [DecidableEq ι] {k : ι → Kind}

theorem family_ran {a r} (h : (Kind.family k).build a = .ok r) : ∃ q, (k a.1).build a.2 = .ok q ∧ r = (⟨a.1, q.1⟩, ⟨a.1, q.2⟩) := by
  have h : ((k a.1).build a.2 >>= fun r => Except.ok (⟨a.1, r.1⟩, ⟨a.1, r.2⟩)) = Except.ok r := h
  obtain ⟨q, h1, h2⟩ := bind_eq_ok.1 h
  cases h2
  exact ⟨q, h1, rfl⟩

theorem family_stepped {b o op r} (h : (Kind.family k).step b o op = .ok r) :
    o.1 = b.1 ∧ op.1 = b.1 ∧ r.1.1 = b.1 ∧ r.2.1.1 = b.1 := by
  have h : (if h : o.1 = b.1 ∧ op.1 = b.1 then ((k b.1).step b.2 (h.1 ▸ o.2) (h.2 ▸ op.2) >>= fun r =>
      Except.ok (⟨b.1, r.1⟩, ⟨b.1, r.2.1⟩, ⟨b.1, r.2.2⟩)) else .error .assertion) = Except.ok r := h
  split at h
  · next h' =>
    obtain ⟨q, h1, h2⟩ := bind_eq_ok.1 h
    cases h2
    exact ⟨h'.1, h'.2, rfl, rfl⟩
  · cases h

theorem family_pointer {i : ι} (hk : ByPointer (k i)) (b0 : (k i).Body) :
    PointerClass (Kind.family k) (⟨i, b0⟩ : Σ i, (k i).Body) (fun o => o.1 = i) := by
  have one : ∀ b : Σ i, (k i).Body, b.1 = i → b = ⟨i, b0⟩ := by
    rintro ⟨j, b⟩ h
    have h : j = i := h
    subst h
    rw [hk.one b b0]
  have fst : ∀ b : Σ i, (k i).Body, b = ⟨i, b0⟩ → b.1 = i := fun b h => congrArg Sigma.fst h
  refine ⟨fun a r h => ?_, fun b' o op r h => ?_, hk.deletes b0⟩
  · obtain ⟨q, -, rfl⟩ := family_ran h
    exact ⟨fun e => fst _ e, fun e => one _ e⟩
  · obtain ⟨h1, h2, h3, h4⟩ := family_stepped h
    refine ⟨⟨fun e => h1.trans (fst _ e), fun e => one _ (h1.symm.trans e)⟩, fun e => ⟨one _ (h3.trans (fst _ e)), h4.trans (fst _ e), ?_⟩⟩
    have e' : op.1 = i := h2.trans (fst _ e)
    obtain ⟨j, x⟩ := op
    have e' : j = i := e'
    subst e'
    exact hk.via x

theorem own_named (i : ι) (n : Nat) (a : (k i).Args) (calls : List (Nat × (k i).Op)) :
    ((WOp.create n a :: calls.map fun c => WOp.call c.1 c.2) : List (WOp (k i))).map (inClass (k := k) i) =
      WOp.create (k := Kind.family k) n ⟨i, a⟩ :: calls.map fun c => WOp.call (k := Kind.family k) c.1 ⟨i, c.2⟩ := by
  rw [List.map_cons, List.map_map]; rfl

/-- C139, any classes: a controller of a class whose data are all behind the pointer is one controller with several names, in programs with
controllers of other classes. -/
theorem c139_classes {ops : List (WOp (Kind.family k))} {w : World (Kind.family k)} {outs}
    (hr : (World.empty (Kind.family k)).run ops = .ok (w, outs)) {i : ι} (hk : ByPointer (k i)) (b0 : (k i).Body) {p n : Nat} {a : (k i).Args}
    {calls : List (Nat × (k i).Op)}
    (hp : Names.start.steps p ops = .create n ⟨i, a⟩ :: calls.map fun c => .call c.1 ⟨i, c.2⟩) :
    ∃ s outs', aloneRun none (.create n a :: calls.map fun c => (.call c.1 c.2 : WOp (k i))) = .ok (s, outs') ∧
      Names.start.rets p ops outs = outs'.map (Option.map (outClass i)) ∧
      ∀ j, (Names.start.afterAll ops).of j = some p → w.view j = s.map (asClass i) := by
  obtain ⟨h1, h2⟩ := run_namedAt (family_pointer hk b0) (p := p) namedAt_empty (fun i' a' hm r hr => by
    rw [hp] at hm
    rcases List.mem_cons.1 hm with e | e
    · cases e
      obtain ⟨q, -, rfl⟩ := family_ran hr
      exact congrArg (fun b => (⟨i, b⟩ : Σ i, (k i).Body)) (hk.one q.1 b0)
    · obtain ⟨c, -, e⟩ := List.mem_map.1 e
      cases e) hr
  rw [hp] at h2
  have h2 : aloneRun none ((WOp.create n a :: calls.map fun c => WOp.call c.1 c.2).map (inClass (k := k) i)) = _ :=
    (congrArg (aloneRun none) (own_named i n a calls)).trans h2
  have e : aloneRun none ((WOp.create n a :: calls.map fun c => WOp.call c.1 c.2).map (inClass (k := k) i)) = _ :=
    family_aloneRun i _ none
  rw [e] at h2
  cases hq : aloneRun none (WOp.create n a :: calls.map fun c => (WOp.call c.1 c.2 : WOp (k i))) with
  | error er => rw [hq] at h2; cases h2
  | ok q =>
    rw [hq] at h2
    have h2 := Except.ok.inj h2
    exact ⟨q.1, q.2, rfl, (congrArg Prod.snd h2).symm, fun j hj => (h1.view hj).trans (congrArg Prod.fst h2).symm⟩

end

variable {K : Type} [Field K] [LinearOrder K] [IsStrictOrderedRing K]

/-- C139: in a program which also has linear controllers and nonlinear ones of other dimensions, a nonlinear controller which is still alive
has the state and the answers of a history of the calls made by any of its names, so that everything proved about such histories holds of it
and of all its copies. -/
theorem c139_mixed {ops : List (WOp (mixedKind K))} {w : World (mixedKind K)} {outs}
    (hr : (World.empty (mixedKind K)).run ops = .ok (w, outs)) {p n : Nat} {d : Dims} {junk : Nat → K} {dyn : Bool}
    {calls : List (Nat × NlCall d K)}
    (hp : Names.start.steps p ops = .create n ⟨some d, (junk, dyn)⟩ :: calls.map fun c => .call c.1 ⟨some d, c.2⟩)
    (hd : HorizonsOk d) (hm : d.ph * d.nx + d.nu * d.ch + 1 ≤ 2 ^ 64) (hs : ∀ c ∈ calls, CallFits d c.2) :
    ∃ m outs', NlRan d dyn (calls.map Prod.snd) outs' m ∧
      Names.start.rets p ops outs = none :: outs'.map (fun o => some ⟨some d, o⟩) ∧
      ∀ j, (Names.start.afterAll ops).of j = some p → w.view j = some (⟨some d, ()⟩, ⟨some d, m⟩) := by
  obtain ⟨s, outs1, h1, h2, h3⟩ := c139_classes (k := classes K) hr (i := some d) (nonlinear_byPointer (d := d) (K := K)) () hp
  have e : aloneRun (k := nonlinearKind d K) none (.create n (junk, dyn) :: calls.map fun c => .call c.1 c.2) =
      aloneRun none (.create n (junk, dyn) :: (calls.map Prod.snd).map fun op => .call n op) := by
    simp only [aloneRun]
    refine congrArg _ (funext fun r => ?_)
    exact congrArg (· >>= _) (alone_renamed (k := nonlinearKind d K) (i := n) calls r.1)
  obtain ⟨m, outs', g1, g2, g3⟩ := alone_history (e.symm.trans h1) hd hm (fun op ho => by
    obtain ⟨c, hc, rfl⟩ := List.mem_map.1 ho
    exact hs c hc)
  refine ⟨m, outs', g1, ?_, fun j hj => ?_⟩
  · refine h2.trans ?_
    rw [g2]
    exact own_outs (k := classes K) (some d) outs'
  · refine (h3 j hj).trans ?_
    rw [g3]
    rfl

theorem steps_append {k : Kind} (p : Nat) : ∀ (n : Names) (l r : List (WOp k)), n.steps p (l ++ r) = n.steps p l ++ (n.afterAll l).steps p r
  | n, [], r => rfl
  | n, op :: l, r => by
    simp only [List.cons_append, Names.steps, Names.afterAll, steps_append p (n.after op) l r]
    split <;> rfl

theorem afterAll_append {k : Kind} : ∀ (n : Names) (l r : List (WOp k)), n.afterAll (l ++ r) = (n.afterAll l).afterAll r
  | n, [], r => rfl
  | n, op :: l, r => afterAll_append (n.after op) l r

theorem afterAll_calls {k : Kind} (n : Names) (j : Nat) : ∀ l : List k.Op, n.afterAll (l.map fun op => WOp.call j op) = n
  | [] => rfl
  | _ :: l => afterAll_calls n j l

theorem steps_calls {k : Kind} {p : Nat} {n : Names} {j : Nat} (h : n.of j ≠ some p) :
    ∀ l : List k.Op, n.steps p (l.map fun op => WOp.call j op) = []
  | [] => rfl
  | op :: l => by
    simp only [List.map_cons, Names.steps, Names.after]
    rw [if_neg (show ¬ n.concerns p (WOp.call j op) from h)]
    exact steps_calls h l

section
variable {ι : Type} [DecidableEq ι] {k : ι → Kind} {i l : ι} {a : (k i).Args} {b : (k l).Args} {calls : List (k i).Op}

theorem mixed_names : Names.start.afterAll (mixed i l a b calls) =
    ⟨fun j => if j = 2 then some 2 else if j = 0 then some 1 else if j = 1 then some 0 else none, 3⟩ :=
  (afterAll_append (k := Kind.family k) Names.start _ _).trans (afterAll_calls (k := Kind.family k) _ 0 _)

theorem mixed_steps : Names.start.steps 2 (mixed i l a b calls) = [WOp.create (k := Kind.family k) 2 ⟨l, b⟩] := by
  refine (steps_append (k := Kind.family k) 2 Names.start _ _).trans ?_
  refine (congrArg (_ ++ ·) (steps_calls (k := Kind.family k) ?_ _)).trans ?_
  · simp [Names.afterAll, Names.after, Names.start]
  · simp [Names.steps, Names.after, Names.start, Names.concerns]

end

/-- A linear controller 0 which is configured and asked, two nonlinear ones 1 and 2, and a copy 3 of the latter: both names of the latter show
the state of a controller which was only constructed. -/
example : ∃ (a : (linearKind ℚ).Args) (calls : List (LOp ℚ)) (w : World (mixedKind ℚ)) (outs : _),
    (∃ x0 u0 oc, LOp.optimize x0 u0 oc ∈ calls) ∧
    (World.empty (mixedKind ℚ)).run (mixed (k := classes ℚ) none (some dN) a (fun _ => 0, false) calls ++ [.copy 2 3]) = .ok (w, outs) ∧
    ∃ m outs', NlRan dN false [] outs' m ∧ w.view 2 = some (⟨some dN, ()⟩, ⟨some dN, m⟩) ∧ w.view 3 = some (⟨some dN, ()⟩, ⟨some dN, m⟩) := by
  obtain ⟨a, calls, w, outs, ho, -, -, e⟩ := mixed_copy_ran
  have hn : Names.start.afterAll (mixed (k := classes ℚ) none (some dN) a (fun _ => 0, false) calls ++ [.copy 2 3]) = _ :=
    (afterAll_append _ _ _).trans (congrArg (fun n => Names.afterAll n [WOp.copy (k := mixedKind ℚ) 2 3]) mixed_names)
  obtain ⟨m, outs', h1, -, h2⟩ := c139_mixed e (p := 2) (n := 2) (d := dN) (junk := fun _ => 0) (dyn := false) (calls := [])
    ((steps_append _ _ _ _).trans (((congrArg (· ++ _) mixed_steps)).trans (by simp [Names.steps, Names.concerns])))
    ⟨by decide, by decide, by decide⟩ (by decide) (fun c hc => by cases hc)
  exact ⟨a, calls, w, outs, ho, e, m, outs', h1, h2 2 (by rw [hn]; rfl), h2 3 (by rw [hn]; rfl)⟩

end Mpc.Props
