import Verif.Spec.Mixed
import Verif.Proofs.Uncopied
import Verif.Props.Instances
import Verif.Props.NlNested
import Verif.Props.Uncopied

/-
C138: linear and nonlinear controllers in one program.
-/
namespace Mpc.Props
open Mpc.Spec Exec World
set_option linter.unusedSectionVars false

section
variable {ι : Type} [DecidableEq ι] {k : ι → Kind}

theorem family_build (i : ι) (a : (k i).Args) : (Kind.family k).build ⟨i, a⟩ = ((k i).build a).map (asClass i) := by
  show ((k i).build a >>= fun r => Except.ok _) = _
  cases (k i).build a <;> rfl

theorem family_step (i : ι) (b : (k i).Body) (o : (k i).Opt) (op : (k i).Op) : (Kind.family k).step ⟨i, b⟩ ⟨i, o⟩ ⟨i, op⟩ =
    ((k i).step b o op).map fun r => (⟨i, r.1⟩, ⟨i, r.2.1⟩, ⟨i, r.2.2⟩) := by
  refine (dif_pos (show i = i ∧ i = i from ⟨rfl, rfl⟩)).trans ?_
  show ((k i).step b o op >>= fun r => Except.ok _) = _
  cases (k i).step b o op <;> rfl

theorem family_aloneStep (i : ι) (s : Option ((k i).Body × (k i).Opt)) (op : WOp (k i)) :
    aloneStep (s.map (asClass (k := k) i)) (inClass i op) =
      (aloneStep s op).map fun r => (r.1.map (asClass i), r.2.map (outClass i)) := by
  cases op with
  | create j a =>
    cases s with
    | none =>
      show ((Kind.family k).build ⟨i, a⟩ >>= fun r => Except.ok (some r, none)) =
        Except.map _ ((k i).build a >>= fun r => Except.ok (some r, none))
      rw [family_build]
      cases (k i).build a <;> rfl
    | some s => rfl
  | copy j l => cases s <;> rfl
  | assign j l => cases s <;> rfl
  | call j op =>
    cases s with
    | none => rfl
    | some s =>
      show ((Kind.family k).step ⟨i, s.1⟩ ⟨i, s.2⟩ ⟨i, op⟩ >>= fun r => Except.ok (some (r.1, r.2.1), some r.2.2)) =
        Except.map _ ((k i).step s.1 s.2 op >>= fun r => Except.ok (some (r.1, r.2.1), some r.2.2))
      rw [family_step]
      cases (k i).step s.1 s.2 op <;> rfl
  | destroy j => cases s <;> rfl

theorem family_aloneRun (i : ι) : ∀ (ops : List (WOp (k i))) (s : Option ((k i).Body × (k i).Opt)),
    aloneRun (s.map (asClass (k := k) i)) (ops.map (inClass i)) =
      (aloneRun s ops).map fun r => (r.1.map (asClass i), r.2.map (Option.map (outClass i)))
  | [], s => rfl
  | op :: ops, s => by
    simp only [List.map_cons, aloneRun, family_aloneStep]
    cases aloneStep s op with
    | error e => rfl
    | ok r =>
      show (aloneRun (r.1.map (asClass i)) (ops.map (inClass i)) >>= _) = _
      rw [family_aloneRun i ops r.1]
      simp only [Except.map, ok_bind]
      cases aloneRun r.1 ops <;> rfl

/-- A controller of a class without copies is never copied. -/
theorem family_uncopied {i : ι} (hc : ∀ b, (k i).copyable b = false) {j : Nat} :
    ∀ {ops : List (WOp (Kind.family k))} {w w' : World (Kind.family k)} {outs} {s : Option ((k i).Body × (k i).Opt)}
      {own : List (WOp (k i))}, Lone j w → w.view j = s.map (asClass i) → about j ops = own.map (inClass i) → NoCopies own →
      w.run ops = .ok (w', outs) → Uncopied j ops
  | [], _, _, _, _, _, _, _, _, _, _ => fun o ho => by cases ho
  | op :: ops, w, w', outs, s, own, hl, hv, ha, hn, hr => by
    simp only [World.run, bind_eq_ok] at hr
    obtain ⟨r, hr1, q, hq, -⟩ := hr
    have hfrom : apartFrom j op := by
      have src : ∀ a, (∃ o, w.obj a = .ok o ∧ (Kind.family k).copyable o.body = true) → a ≠ j := by
        rintro a ⟨o, ho, hcp⟩ rfl
        have ho : w.objs a = some o := by
          unfold World.obj at ho
          split at ho
          · next hx => cases ho; exact hx
          · cases ho
        obtain ⟨c, h1, -⟩ := hl.own o ho
        have hv' : w.view a = some (o.body, c.opt) := by simp only [World.view, ho, h1]
        rw [hv'] at hv
        cases s with
        | none => cases hv
        | some s =>
          have e : o.body = ⟨i, s.1⟩ := congrArg Prod.fst (Option.some.inj hv)
          rw [e] at hcp
          exact Bool.false_ne_true ((hc s.1).symm.trans hcp)
      have dst : subject op = j → ∃ op' ∈ own, op = inClass i op' := fun e => by
        rw [about_cons e] at ha
        have := List.mem_map.1 (ha ▸ List.mem_cons_self : op ∈ own.map (inClass i))
        obtain ⟨x, h1, h2⟩ := this
        exact ⟨x, h1, h2.symm⟩
      cases op with
      | copy a b =>
        simp only [World.step, bind_eq_ok, require_eq_ok] at hr1
        obtain ⟨o, ho, -, hcp, -⟩ := hr1
        refine ⟨src a ⟨o, ho, hcp⟩, fun e => ?_⟩
        obtain ⟨x, h1, h2⟩ := dst e
        have := hn x h1
        cases x <;> first | exact this | cases h2
      | assign a b =>
        simp only [World.step, bind_eq_ok, require_eq_ok] at hr1
        obtain ⟨o, ho, -, hcp, -⟩ := hr1
        refine ⟨src a ⟨o, ho, hcp⟩, fun e => ?_⟩
        obtain ⟨x, h1, h2⟩ := dst e
        have := hn x h1
        cases x <;> first | exact this | cases h2
      | _ => trivial
    obtain ⟨hl', hs, hk⟩ := step_lone hl hfrom hr1
    have rest : Uncopied j ops := by
      by_cases hj : subject op = j
      · rw [about_cons hj] at ha
        cases own with
        | nil => cases ha
        | cons op' own =>
          have e1 : op = inClass i op' := (List.cons.inj ha).1
          have h1 := hs hj
          rw [hv, e1, family_aloneStep] at h1
          cases h2 : aloneStep s op' with
          | error e => rw [h2] at h1; cases h1
          | ok x =>
            rw [h2] at h1
            have h3 : x.1.map (asClass i) = r.1.view j := congrArg Prod.fst (Except.ok.inj h1)
            exact family_uncopied hc hl' h3.symm (List.cons.inj ha).2 (fun o ho => hn o (List.mem_cons_of_mem _ ho)) hq
      · rw [about_skip hj] at ha
        exact family_uncopied hc hl' ((hk hj).trans hv) ha hn hq
    intro o ho
    rcases List.mem_cons.1 ho with rfl | ho
    · cases o <;> exact hfrom
    · exact rest o ho

/-- C138: a controller which is never copied, in a program with controllers of several classes, returns what it would in a program of its
class in which there is no other controller, and is left in the same state, whatever is done with the others and their copies. -/
theorem c138_alone {ops : List (WOp (Kind.family k))} {w : World (Kind.family k)} {outs}
    (hr : (World.empty (Kind.family k)).run ops = .ok (w, outs)) {j : Nat} (hn : Uncopied j ops) {i : ι} {own : List (WOp (k i))}
    (hj : about j ops = own.map (inClass i)) :
    ∃ s outs', aloneRun none own = .ok (s, outs') ∧ w.view j = s.map (asClass i) ∧
      returned j ops outs = outs'.map (Option.map (outClass i)) := by
  have h := (run_lone (lone_empty j) hn hr).2
  rw [hj] at h
  have e : aloneRun none (own.map (inClass (k := k) i)) = _ := family_aloneRun i own none
  have h : aloneRun none (own.map (inClass (k := k) i)) = _ := h
  rw [e] at h
  cases hq : aloneRun none own with
  | error er => rw [hq] at h; cases h
  | ok q =>
    rw [hq] at h
    have h := Except.ok.inj h
    exact ⟨q.1, q.2, rfl, (congrArg Prod.fst h).symm, (congrArg Prod.snd h).symm⟩

/-- C138: if the steps about every controller run as a program of its class, a program without copies runs. -/
theorem c138_runs {ops : List (WOp (Kind.family k))} (hn : NoCopies ops)
    (ha : ∀ j, ∃ i, ∃ own : List (WOp (k i)), about j ops = own.map (inClass i) ∧ ∃ q, aloneRun none own = .ok q) :
    ∃ q, (World.empty (Kind.family k)).run ops = .ok q := by
  refine c74_runs_partial hn fun j => ?_
  obtain ⟨i, own, h1, q, h2⟩ := ha j
  rw [h1, show aloneRun none (own.map (inClass (k := k) i)) = _ from family_aloneRun i own none, h2]
  exact ⟨_, rfl⟩

theorem own_calls (i : ι) (j : Nat) (a : (k i).Args) (calls : List (k i).Op) :
    ((WOp.create j a :: calls.map fun op => WOp.call j op) : List (WOp (k i))).map (inClass (k := k) i) =
      WOp.create (k := Kind.family k) j ⟨i, a⟩ :: calls.map fun op => WOp.call (k := Kind.family k) j ⟨i, op⟩ := by
  rw [List.map_cons, List.map_map]; rfl

theorem own_outs (i : ι) (outs : List (k i).Out) :
    ((none :: outs.map some : List (Option (k i).Out))).map (Option.map (outClass (k := k) i)) =
      none :: outs.map fun o => some (⟨i, o⟩ : (Kind.family k).Out) := by
  rw [List.map_cons, List.map_map]; rfl

end

variable {K : Type} [Field K] [LinearOrder K] [IsStrictOrderedRing K]

/-- C138: everything proved about a linear controller holds of one in any program with linear and nonlinear ones and copies of
these. -/
theorem c138_linear {ops : List (WOp (mixedKind K))} {w : World (mixedKind K)} {outs}
    (hr : (World.empty (mixedKind K)).run ops = .ok (w, outs)) {j : Nat} {d : Dims} {uninit : Nat → Nat → K} {junk : Nat → Nat}
    {calls : List (LOp K)}
    (hj : about j ops = .create j ⟨none, (d, uninit, junk)⟩ :: calls.map fun op => .call j ⟨none, op⟩)
    (hd : d.Valid) (hs : ∀ op ∈ calls, Sized d op ∧ SliceNonneg op) :
    ∃ m outs', Configured d calls outs' m ∧ returned j ops outs = none :: outs'.map (fun o => some ⟨none, o⟩) ∧
      w.view j = some (⟨none, (m.d, m.b)⟩, ⟨none, m.o⟩) := by
  have hu : Uncopied j ops := family_uncopied (k := classes K) (i := none) (fun _ => rfl) (s := none)
    (own := .create j (d, uninit, junk) :: calls.map fun op => .call j op) (lone_empty j) rfl
    (hj.trans (own_calls (k := classes K) none j (d, uninit, junk) calls).symm) (fun o ho => by
      rcases List.mem_cons.1 ho with rfl | ho
      · trivial
      · obtain ⟨y, -, rfl⟩ := List.mem_map.1 ho
        trivial) hr
  obtain ⟨s, outs1, h1, h2, h3⟩ := c138_alone (k := classes K) (i := none)
    (own := .create j (d, uninit, junk) :: calls.map fun op => .call j op) hr (j := j) hu (hj.trans (own_calls (k := classes K) none j (d, uninit, junk) calls).symm)
  obtain ⟨r, hb, t, ht, he⟩ := aloneRun_create.mp h1
  obtain ⟨m0, h0, rfl⟩ := linearKind_build.mp hb
  obtain ⟨m', outs', e1, e2, e3⟩ := alone_linear (m := m0) ht
  have g1 : s = t.1 := congrArg Prod.fst he
  have g2 : outs1 = none :: t.2 := congrArg Prod.snd he
  refine ⟨m', outs', ⟨hd, hs, uninit, junk, m0, h0, e1⟩, ?_, ?_⟩
  · refine h3.trans ?_
    rw [g2, e3]
    exact own_outs (k := classes K) none outs'
  · refine h2.trans ?_
    rw [g1, e2]; rfl

/-- C138: everything proved about a nonlinear controller holds of one which is never copied, in any program with linear ones, with nonlinear
ones of other dimensions and with copies of these. -/
theorem c138_nonlinear {ops : List (WOp (mixedKind K))} {w : World (mixedKind K)} {outs}
    (hr : (World.empty (mixedKind K)).run ops = .ok (w, outs)) {j : Nat} (hn : Uncopied j ops) {d : Dims} {junk : Nat → K} {dyn : Bool}
    {calls : List (NlCall d K)}
    (hj : about j ops = .create j ⟨some d, (junk, dyn)⟩ :: calls.map fun op => .call j ⟨some d, op⟩)
    (hd : HorizonsOk d) (hm : d.ph * d.nx + d.nu * d.ch + 1 ≤ 2 ^ 64) (hs : ∀ op ∈ calls, NlSpec.CallFits d op) :
    ∃ m outs', NlRan d dyn calls outs' m ∧ returned j ops outs = none :: outs'.map (fun o => some ⟨some d, o⟩) ∧
      w.view j = some (⟨some d, ()⟩, ⟨some d, m⟩) := by
  obtain ⟨s, outs1, h1, h2, h3⟩ := c138_alone (k := classes K) (i := some d)
    (own := .create j (junk, dyn) :: calls.map fun op => .call j op) hr (j := j) hn (hj.trans (own_calls (k := classes K) (some d) j (junk, dyn) calls).symm)
  obtain ⟨r, hb, t, ht, he⟩ := aloneRun_create.mp h1
  obtain ⟨m0, h0, rfl⟩ := nonlinearKind_build.mp hb
  obtain ⟨m', outs', e1, e2, e3⟩ := alone_nonlinear (m := m0) (pre := []) (o0 := []) (junk := junk) (dyn := dyn) (by
    have h0 : NlMpc.init d junk dyn = .ok m0 := h0
    simp only [NlMpc.run, List.foldl_nil, h0, ok_bind]
    rfl) ht
  have g1 : s = t.1 := congrArg Prod.fst he
  have g2 : outs1 = none :: t.2 := congrArg Prod.snd he
  refine ⟨m', outs', ⟨hd, hm, hs, junk, e1⟩, ?_, ?_⟩
  · refine h3.trans ?_
    rw [g2, e3]
    exact own_outs (k := classes K) (some d) outs'
  · refine h2.trans ?_
    rw [g1, e2]; rfl

/-- C138: the same within user functions: a linear controller which the functions of a nonlinear one use together with controllers of other
classes has the state and the answers of a history of its own calls. -/
theorem c138_inside {d : Dims} {τ : Type} {f : Nested d K (mixedKind K) τ} {w0 : World (mixedKind K)} {t0 : τ} {i : Inner (mixedKind K) τ}
    {before : List (WOp (mixedKind K))} {outs0} {dyn : Bool} {ops outs es m}
    (h0 : (World.empty (mixedKind K)).run before = .ok (w0, outs0))
    (h : UnRan f.insider (.ok ⟨w0, t0, []⟩) dyn ops outs es m (.ok i)) {j : Nat} {d' : Dims} {uninit : Nat → Nat → K} {junk : Nat → Nat}
    {calls : List (LOp K)}
    (hj : about j (before ++ i.past.map Prod.fst) = .create j ⟨none, (d', uninit, junk)⟩ :: calls.map fun op => .call j ⟨none, op⟩)
    (hd : d'.Valid) (hs : ∀ op ∈ calls, Sized d' op ∧ SliceNonneg op) :
    ∃ m outs', Configured d' calls outs' m ∧
      returned j (before ++ i.past.map Prod.fst) (outs0 ++ i.past.map Prod.snd) = none :: outs'.map (fun o => some ⟨none, o⟩) ∧
      i.world.view j = some (⟨none, (m.d, m.b)⟩, ⟨none, m.o⟩) :=
  c138_linear (World.run_append h0 (c137_program h)) hj hd hs

/-- C138: likewise for a nonlinear controller inside which is never copied. -/
theorem c138_inside_nonlinear {d : Dims} {τ : Type} {f : Nested d K (mixedKind K) τ} {w0 : World (mixedKind K)} {t0 : τ}
    {i : Inner (mixedKind K) τ} {before : List (WOp (mixedKind K))} {outs0} {dyn : Bool} {ops outs es m}
    (h0 : (World.empty (mixedKind K)).run before = .ok (w0, outs0))
    (h : UnRan f.insider (.ok ⟨w0, t0, []⟩) dyn ops outs es m (.ok i)) {j : Nat} (hn : Uncopied j (before ++ i.past.map Prod.fst))
    {d' : Dims} {junk : Nat → K} {dyn' : Bool} {calls : List (NlCall d' K)}
    (hj : about j (before ++ i.past.map Prod.fst) = .create j ⟨some d', (junk, dyn')⟩ :: calls.map fun op => .call j ⟨some d', op⟩)
    (hd : HorizonsOk d') (hm : d'.ph * d'.nx + d'.nu * d'.ch + 1 ≤ 2 ^ 64) (hs : ∀ op ∈ calls, NlSpec.CallFits d' op) :
    ∃ m outs', NlRan d' dyn' calls outs' m ∧
      returned j (before ++ i.past.map Prod.fst) (outs0 ++ i.past.map Prod.snd) = none :: outs'.map (fun o => some ⟨some d', o⟩) ∧
      i.world.view j = some (⟨some d', ()⟩, ⟨some d', m⟩) :=
  c138_nonlinear (World.run_append h0 (c137_program h)) hn hj hd hm hs

/-! ### a program with controllers of both classes and a copy -/

section
variable {ι : Type} [DecidableEq ι] {k : ι → Kind}

theorem about_calls {k : Kind} {i j : Nat} (l : List k.Op) :
    about i (l.map fun a => WOp.call j a) = if j = i then l.map (fun a => WOp.call j a) else [] := by
  split
  · next h =>
    subst h
    refine List.filter_eq_self.2 fun o ho => ?_
    obtain ⟨y, -, rfl⟩ := List.mem_map.1 ho
    simp [subject]
  · next h =>
    refine List.filter_eq_nil_iff.2 fun o ho => ?_
    obtain ⟨y, -, rfl⟩ := List.mem_map.1 ho
    simp [subject, h]

theorem about_append {k : Kind} {i : Nat} (l r : List (WOp k)) : about i (l ++ r) = about i l ++ about i r := List.filter_append ..

theorem about_split {k : Kind} {i j : Nat} (l : List (WOp k)) (r : List k.Op) :
    about i (l ++ r.map fun a => WOp.call j a) = about i l ++ if j = i then r.map (fun a => WOp.call j a) else [] := by
  rw [about_append, about_calls]

/-- a controller 0 of the class `i` and two controllers 1 and 2 of the class `l`, then calls of the first -/
def mixed (i l : ι) (a : (k i).Args) (b : (k l).Args) (calls : List (k i).Op) : List (WOp (Kind.family k)) :=
  [.create 1 ⟨l, b⟩, .create 0 ⟨i, a⟩, .create 2 ⟨l, b⟩] ++ (calls.map fun op => (⟨i, op⟩ : (Kind.family k).Op)).map fun op => .call 0 op

variable {i l : ι} {a : (k i).Args} {b : (k l).Args} {calls : List (k i).Op}

theorem mixed_noCopies : NoCopies (mixed i l a b calls) := fun o ho => by
  rcases List.mem_append.1 ho with ho | ho
  · simp only [List.mem_cons, List.not_mem_nil, or_false] at ho
    rcases ho with rfl | rfl | rfl <;> trivial
  · obtain ⟨y, -, rfl⟩ := List.mem_map.1 ho
    trivial

theorem mixed_zero : about 0 (mixed i l a b calls) = WOp.create (k := Kind.family k) 0 ⟨i, a⟩ :: calls.map fun op => .call 0 ⟨i, op⟩ :=
  (about_split (k := Kind.family k) (i := 0) (j := 0) _ _).trans
    (congrArg (WOp.create (k := Kind.family k) 0 ⟨i, a⟩ :: ·) List.map_map)

theorem mixed_one : about 1 (mixed i l a b calls) = [WOp.create (k := Kind.family k) 1 ⟨l, b⟩] :=
  (about_split (k := Kind.family k) (i := 1) (j := 0) _ _).trans rfl

theorem mixed_two : about 2 (mixed i l a b calls) = [WOp.create (k := Kind.family k) 2 ⟨l, b⟩] :=
  (about_split (k := Kind.family k) (i := 2) (j := 0) _ _).trans rfl

theorem mixed_other {j : Nat} (h0 : j ≠ 0) (h1 : j ≠ 1) (h2 : j ≠ 2) : about j (mixed i l a b calls) = [] := by
  refine (about_split (k := Kind.family k) (i := j) (j := 0) _ _).trans ?_
  rw [if_neg (Ne.symm h0)]
  exact (congrArg (· ++ []) ((about_skip (k := Kind.family k) (op := .create 1 ⟨l, b⟩) (Ne.symm h1)).trans
    ((about_skip (k := Kind.family k) (op := .create 0 ⟨i, a⟩) (Ne.symm h0)).trans
      (about_skip (k := Kind.family k) (op := .create 2 ⟨l, b⟩) (Ne.symm h2)))))

theorem mixed_ran (h0 : ∃ q, aloneRun none (.create 0 a :: calls.map fun op => (.call 0 op : WOp (k i))) = .ok q)
    (h1 : ∃ r, (k l).build b = .ok r) : ∃ w outs, (World.empty (Kind.family k)).run (mixed i l a b calls) = .ok (w, outs) ∧
      w.objs 3 = none ∧ ∃ o r, w.objs 2 = some o ∧ o.body = (⟨l, r⟩ : (Kind.family k).Body) := by
  obtain ⟨r, h1⟩ := h1
  have nl : ∀ j, aloneRun (k := k l) none [.create j b] = .ok (some r, [none]) := fun j => by
    simp only [aloneRun, aloneStep, h1, ok_bind]; rfl
  obtain ⟨⟨w, outs⟩, hq⟩ : ∃ q, (World.empty (Kind.family k)).run (mixed i l a b calls) = .ok q := by
    refine c138_runs mixed_noCopies fun j => ?_
    by_cases e0 : j = 0
    · subst e0
      exact ⟨i, _, mixed_zero.trans (own_calls i 0 a calls).symm, h0⟩
    by_cases e1 : j = 1
    · subst e1
      exact ⟨l, _, mixed_one.trans (own_calls l 1 b []).symm, _, nl 1⟩
    by_cases e2 : j = 2
    · subst e2
      exact ⟨l, _, mixed_two.trans (own_calls l 2 b []).symm, _, nl 2⟩
    exact ⟨i, [], mixed_other e0 e1 e2, _, rfl⟩
  refine ⟨w, outs, hq, ?_, ?_⟩
  · obtain ⟨ha, hr⟩ := run_apart apart_empty mixed_noCopies hq
    have h3 := hr 3
    rw [mixed_other (by decide) (by decide) (by decide)] at h3
    have h3 : none = w.view 3 := congrArg Prod.fst (Except.ok.inj h3)
    cases ho : w.objs 3 with
    | none => rfl
    | some o =>
      obtain ⟨c, -, -, hv⟩ := ha.view_some ho
      rw [← h3] at hv
      cases hv
  · obtain ⟨s, outs', g1, g2, -⟩ := c138_alone (j := 2) (i := l) (own := [.create 2 b]) hq (fun o ho => by
      have := mixed_noCopies o ho
      cases o <;> first | exact this.elim | trivial) (mixed_two.trans (own_calls l 2 b []).symm)
    rw [nl 2] at g1
    cases g1
    unfold World.view at g2
    split at g2
    · next o ho =>
      split at g2
      · exact ⟨o, r.1, ho, congrArg Prod.fst (Option.some.inj g2)⟩
      · cases g2
    · cases g2

end

theorem mixed_copy_ran : ∃ (a : (linearKind ℚ).Args) (calls : List (LOp ℚ)) (w : World (mixedKind ℚ)) (outs : _),
    (∃ x0 u0 oc, LOp.optimize x0 u0 oc ∈ calls) ∧ a.1.Valid ∧ (∀ op ∈ calls, Sized a.1 op ∧ SliceNonneg op) ∧
    (World.empty (mixedKind ℚ)).run (mixed (k := classes ℚ) none (some dN) a (fun _ => 0, false) calls ++ [.copy 2 3]) = .ok (w, outs) := by
  obtain ⟨a, calls, w0, outs0, hv, ho, hs, hr⟩ := linear_alone
  obtain ⟨m0, h0, -⟩ := dN_new
  have ha := c74_linear hr 0
  have hab : about 0 (WOp.create (k := linearKind ℚ) 0 a :: calls.map fun op => (.call 0 op : WOp (linearKind ℚ))) =
      .create 0 a :: calls.map fun op => .call 0 op :=
    (about_cons rfl).trans (congrArg (WOp.create (k := linearKind ℚ) 0 a :: ·)
      ((about_calls (k := linearKind ℚ) (i := 0) (j := 0) calls).trans (if_pos rfl)))
  rw [hab] at ha
  obtain ⟨w, outs, e, h3, o, r, h2, hbody⟩ := mixed_ran (k := classes ℚ) (i := none) (l := some dN) (a := a)
    (b := (fun _ => 0, false)) (calls := calls) ⟨_, ha⟩ ⟨_, nonlinearKind_build.2 ⟨m0, h0, rfl⟩⟩
  exact ⟨a, calls, _, _, ho, hv, hs, run_snoc e (World.step_copy (i := 2) (j := 3) (by rw [hbody]; rfl) h2 h3)⟩

/-- A linear controller 0, two nonlinear ones 1 and 2, configuration and one `optimize` of the first, then a copy 3 of controller 2: the
program runs, the linear controller and controller 1 are as if they were alone. -/
example : ∃ (a : (linearKind ℚ).Args) (calls : List (LOp ℚ)) (w : World (mixedKind ℚ)) (outs : _),
    (∃ x0 u0 oc, LOp.optimize x0 u0 oc ∈ calls) ∧
    (World.empty (mixedKind ℚ)).run (mixed (k := classes ℚ) none (some dN) a (fun _ => 0, false) calls ++ [.copy 2 3]) = .ok (w, outs) ∧
    (∃ m outs', Configured a.1 calls outs' m ∧ w.view 0 = some (⟨none, (m.d, m.b)⟩, ⟨none, m.o⟩)) ∧
    ∃ m outs', NlRan dN false [] outs' m ∧ w.view 1 = some (⟨some dN, ()⟩, ⟨some dN, m⟩) := by
  obtain ⟨a, calls, w, outs, ho, hv, hs, e'⟩ := mixed_copy_ran
  have hu : Uncopied 1 (mixed (k := classes ℚ) none (some dN) a (fun _ => 0, false) calls ++ [.copy 2 3]) := fun o ho => by
    rcases List.mem_append.1 ho with ho | ho
    · have := mixed_noCopies o ho
      cases o <;> first | exact this.elim | trivial
    · rw [List.mem_singleton.1 ho]
      exact ⟨by decide, by decide⟩
  obtain ⟨m, outs1, g1, -, g2⟩ := c138_linear e' (j := 0) (d := a.1) (uninit := a.2.1) (junk := a.2.2) (calls := calls)
    ((about_append _ _).trans ((congrArg (· ++ _) mixed_zero).trans (List.append_nil _))) hv hs
  obtain ⟨m', outs2, g3, -, g4⟩ := c138_nonlinear e' (j := 1) hu (d := dN) (junk := fun _ => 0) (dyn := false) (calls := [])
    ((about_append _ _).trans ((congrArg (· ++ _) mixed_one).trans (List.append_nil _))) ⟨by decide, by decide, by decide⟩ (by decide) (fun _ h => by cases h)
  exact ⟨a, calls, _, _, ho, e', ⟨m, outs1, g1, g2⟩, m', outs2, g3, g4⟩

end Mpc.Props
