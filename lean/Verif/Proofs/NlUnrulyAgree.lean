import Verif.Proofs.NlUnruly

/-
User functions which never throw: the runs of NlUnruly.lean are those of NlStateful.lean.
-/
namespace Mpc
open Exec NlSpec
set_option linter.unusedSectionVars false
variable {d : Dims} {K : Type} {σ α β : Type}

namespace Prog

theorem runWith_bind_ok {g : Stateful d K σ} {p : Prog d K α} {k : α → Prog d K β} : ∀ {s s'' : σ} {b : β} {l : List (UserCall d K)},
    (p >>= k).runWith g s = (.ok b, s'', l) →
    ∃ a s' l1 l2, p.runWith g s = (.ok a, s', l1) ∧ (k a).runWith g s' = (.ok b, s'', l2) ∧ l = l1 ++ l2 := by
  induction p with
  | done r =>
    intro s s'' b l h
    cases r with
    | error e =>
      change (Prog.done (.error e) : Prog d K β).runWith g s = _ at h
      have := congrArg (fun q => q.1) h
      cases this
    | ok a => exact ⟨a, s, [], l, rfl, h, rfl⟩
  | ask c q ih =>
    intro s s'' b l h
    change (((q (g s c).2 >>= k).runWith g (g s c).1).1, ((q (g s c).2 >>= k).runWith g (g s c).1).2.1,
      c :: ((q (g s c).2 >>= k).runWith g (g s c).1).2.2) = _ at h
    rcases hq : (q (g s c).2 >>= k).runWith g (g s c).1 with ⟨x, y, z⟩
    rw [hq] at h
    cases h
    obtain ⟨a, s', l1, l2, h1, h2, h3⟩ := ih _ hq
    refine ⟨a, s', c :: l1, l2, ?_, h2, by rw [h3]; rfl⟩
    simp only [runWith]
    rw [h1]

/-- functions with memory, as functions which may throw and never do -/
def _root_.Mpc.calm (g : Stateful d K σ) : Unruly d K σ := fun s c => ((g s c).1, some (g s c).2)

theorem attemptWith_calm {g : Stateful d K σ} (p : Prog d K α) : ∀ {s s' : σ} {r : Exec α} {l : List (UserCall d K)},
    p.runWith g s = (r, s', l) → p.attemptWith (calm g) s = (.inl r, s', l.map fun c => (c, false)) := by
  induction p with
  | done r0 => intro s s' r l h; cases h; rfl
  | ask c q ih =>
    intro s s' r l h
    simp only [runWith] at h
    rcases hq : (q (g s c).2).runWith g (g s c).1 with ⟨x, y, z⟩
    rw [hq] at h
    cases h
    have := ih _ hq
    unfold attemptWith
    simp only [calm] at this ⊢
    rw [this]
    rfl

end Prog

namespace NlMpc
variable [Field K] [LinearOrder K]

/-- how an `optimize` ends whose user functions do not throw -/
def endingOf : NlOutcome K → NlEnding K
  | .threw => .solverThrows
  | .answered z v k _ => .returns z v k

theorem acceptP_leave {g : Stateful d K σ} {m m' : NlMpc d K} {x0 z : Vec K} {value : Ext K} {code : Int} {feas : Bool} {junk : Nat → K}
    {s s' : σ} {l : List (UserCall d K)} (h : (m.acceptP x0 value code feas junk).runWith g s = (.ok m', s', l)) :
    ∃ r, leave m x0 z junk = .ok r := by
  unfold acceptP at h
  obtain ⟨w, s1, l1, l2, h1, h, -⟩ := Prog.runWith_bind_ok h
  obtain ⟨cmd, s2, l3, l4, h2, h, -⟩ := Prog.runWith_bind_ok h
  obtain ⟨st, s3, l5, l6, h3, h, -⟩ := Prog.runWith_bind_ok h
  obtain ⟨inp, s4, l7, l8, h4, h, -⟩ := Prog.runWith_bind_ok h
  have e1 := congrArg (fun q => q.1) h1
  have e3 := congrArg (fun q => q.1) h3
  have e4 := congrArg (fun q => q.1) h4
  change _ = Except.ok _ at e1 e3 e4
  change m.s.mp.unwrapVector m.o.optVector x0 _ _ = _ at e1
  change w.1.block 0 0 (d.ph + 1) d.nx = _ at e3
  change w.2.1.block 0 0 (d.ph + 1) d.nu = _ at e4
  unfold leave
  rw [e1]
  simp only [ok_bind]
  rw [e3]
  simp only [ok_bind]
  rw [e4]
  exact ⟨_, rfl⟩

theorem optimizeW_calm {g : Stateful d K σ} {m m' : NlMpc d K} {x0 u0 : Vec K} {cs : List (NlCallback K)} {oc : NlOutcome K}
    {junk : Nat → K} {s s' : σ} {out : NlOut K} {l : List (UserCall d K)} (w : NlWork K)
    (hoc : ∀ z v k t, oc = .answered z v k t → t = false)
    (h : (m.optimizeP x0 u0 cs oc junk).runWith g s = (.ok (m', out), s', l)) :
    m.optimizeW (fun _ => calm g) w x0 u0 cs oc junk s = (.ok (m', out, endingOf oc), s', l.map fun c => (c, false)) := by
  unfold optimizeP at h
  obtain ⟨m1, s1, l1, l2, h1, ha, el⟩ := Prog.runWith_bind_ok h
  clear h
  obtain ⟨p, s2, l3, l4, h2, hb, el2⟩ := Prog.runWith_bind_ok ha
  clear ha
  obtain ⟨st, s3, l5, l6, h3, hc, el4⟩ := Prog.runWith_bind_ok hb
  clear hb
  obtain ⟨m2, s4, l7, l8, h4, h, el6⟩ := Prog.runWith_bind_ok hc
  clear hc
  subst el6 el4 el2 el
  have e1 : m.onState (.measure x0) = .ok m1 := congrArg (fun q => q.1) h1
  have e2 : m1.o.prepare d m1.s.mp junk x0 u0 = .ok p := congrArg (fun q => q.1) h2
  obtain ⟨rfl, rfl⟩ : s = s1 ∧ [] = l1 := ⟨congrArg (fun q => q.2.1) h1, congrArg (fun q => q.2.2) h1⟩
  obtain ⟨rfl, rfl⟩ : s = s2 ∧ [] = l3 := ⟨congrArg (fun q => q.2.1) h2, congrArg (fun q => q.2.2) h2⟩
  obtain ⟨rfl, rfl, rfl, rfl⟩ : m2 = m' ∧ NlOut.result m2.o.result (m1.solverCall p.2) = out ∧ s4 = s' ∧ [] = l8 := by
    have := congrArg (fun q => q.1) h
    have a := Except.ok.inj this
    exact ⟨congrArg Prod.fst a, congrArg Prod.snd a, congrArg (fun q => q.2.1) h, congrArg (fun q => q.2.2) h⟩
  unfold optimizeW
  rw [e1]
  simp only [ok_bind]
  rw [e2]
  simp only [ok_bind, pure, Except.pure]
  unfold searchW
  dsimp only
  have h3' : (callbacksP { m1.o with optVector := p.1 } m1.s cs).runWith g s = (.ok st, s3, l5) := by
    have : (serveP { m1.o with optVector := p.1 } : NlState d K → NlCallback K → _) = serveP m1.o := by
      funext s c
      cases c <;> rfl
    unfold callbacksP at h3 ⊢
    rw [this]
    exact h3
  rw [Prog.attemptWith_calm _ h3']
  cases oc with
  | threw =>
    obtain ⟨a, b, c⟩ : { m1 with s := st, o := ({ m1.o with optVector := p.1 } : NlOpt K).failed d } = m2 ∧ s3 = s4 ∧ [] = l7 :=
      ⟨Except.ok.inj (congrArg (fun q => q.1) h4), congrArg (fun q => q.2.1) h4, congrArg (fun q => q.2.2) h4⟩
    subst a b c
    simp [abandon, endingOf]
  | answered z v k t =>
    obtain rfl := hoc _ _ _ _ rfl
    unfold finishP at h4
    simp only [Bool.false_eq_true, if_false] at h4
    obtain ⟨f, s5, l9, l10, h5, h6, el⟩ := Prog.runWith_bind_ok h4
    clear h4
    subst el
    dsimp only
    unfold checkW
    dsimp only
    rw [Prog.attemptWith_calm _ h5]
    dsimp only
    unfold reportW
    obtain ⟨r, hr⟩ := acceptP_leave (z := z) h6
    rw [hr]
    dsimp only
    rw [Prog.attemptWith_calm _ h6]
    simp [endingOf]

theorem stepW_calm {g : Stateful d K σ} {m m' : NlMpc d K} {op : NlCall d K} {s s' : σ} {out : NlOut K} {l : List (UserCall d K)}
    (w : NlWork K) (hoc : ∀ x0 u0 cs z v k t junk, op = .optimize x0 u0 cs (.answered z v k t) junk → t = false)
    (h : (m.stepP op).runWith g s = (.ok (m', out), s', l)) :
    ∃ t, m.stepW (fun _ => calm g) w op s = (.ok (m', out, t), s', l.map fun c => (c, false)) := by
  by_cases hop : ∃ x0 u0 cs oc junk, op = .optimize x0 u0 cs oc junk
  · obtain ⟨x0, u0, cs, oc, junk, rfl⟩ := hop
    have := optimizeW_calm w (fun z v k t e => hoc x0 u0 cs z v k t junk (by rw [e])) (show (m.optimizeP x0 u0 cs oc junk).runWith g s = _ from h)
    refine ⟨.optimize x0 u0 [] (endingOf oc) junk, ?_⟩
    unfold stepW
    dsimp only
    rw [this]
    rfl
  · have e1 : m.stepP op = .done (m.step op) := by
      cases op with
      | optimize x0 u0 cs oc junk => exact absurd ⟨x0, u0, cs, oc, junk, rfl⟩ hop
      | _ => rfl
    have e2 : m.stepW (fun _ => calm g) w op s = ((m.step op).map fun q => (q.1, q.2, .call op), s, []) := by
      cases op with
      | optimize x0 u0 cs oc junk => exact absurd ⟨x0, u0, cs, oc, junk, rfl⟩ hop
      | _ => rfl
    rw [e1] at h
    obtain ⟨a, rfl, rfl⟩ : m.step op = .ok (m', out) ∧ s = s' ∧ [] = l :=
      ⟨congrArg (fun q => q.1) h, congrArg (fun q => q.2.1) h, congrArg (fun q => q.2.2) h⟩
    rw [e2, a]
    exact ⟨.call op, rfl⟩

theorem runW_calm {g : Stateful d K σ} {junk : Nat → K} {dyn : Bool} {ops : List (NlCall d K × NlWork K)} {s0 s : σ} {m : NlMpc d K}
    {outs : List (NlOut K)} {l : List (UserCall d K)}
    (hoc : ∀ op ∈ ops, ∀ x0 u0 cs z v k t junk, op.1 = .optimize x0 u0 cs (.answered z v k t) junk → t = false)
    (h : (runP d junk dyn (ops.map Prod.fst)).runWith g s0 = (.ok (m, outs), s, l)) :
    ∃ es, runW (fun _ => calm g) s0 junk dyn ops = (.ok (m, outs, es), s, l.map fun c => (c, false)) := by
  induction ops using List.reverseRecOn generalizing m outs s l with
  | nil =>
    unfold runP at h
    rw [List.map_nil, List.foldl_nil] at h
    obtain ⟨m1, s1, l1, l2, h1, h', el⟩ := Prog.runWith_bind_ok h
    clear h
    subst el
    have e1 : init d junk dyn = .ok m1 := congrArg (fun q => q.1) h1
    obtain ⟨rfl, rfl⟩ : s0 = s1 ∧ [] = l1 := ⟨congrArg (fun q => q.2.1) h1, congrArg (fun q => q.2.2) h1⟩
    cases h'
    refine ⟨[], ?_⟩
    unfold runW
    rw [List.foldl_nil, e1]
    rfl
  | append_singleton ops op ih =>
    unfold runP at h
    rw [List.map_append, List.map_cons, List.map_nil, List.foldl_append, List.foldl_cons, List.foldl_nil] at h
    obtain ⟨q, s1, l1, l2, h1, ha, el⟩ := Prog.runWith_bind_ok h
    clear h
    obtain ⟨r, s2, l3, l4, h2, hb, el2⟩ := Prog.runWith_bind_ok ha
    clear ha
    subst el2 el
    cases hb
    obtain ⟨es, e1⟩ := ih (fun op hop => hoc op (List.mem_append_left _ hop)) h1
    obtain ⟨t, e2⟩ := stepW_calm op.2 (hoc op (by simp)) h2
    refine ⟨es ++ [t], ?_⟩
    unfold runW at e1 ⊢
    rw [List.foldl_append, e1, List.foldl_cons, List.foldl_nil]
    dsimp only
    rw [e2]
    simp
    rfl

end NlMpc
end Mpc
