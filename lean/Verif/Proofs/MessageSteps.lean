import Verif.Proofs.Refusals
import Verif.Spec.Instances

/-
Calls in a program with logging.
-/
namespace Mpc
open Mpc.Spec Exec

theorem errors_weave (ms : List Msg) : ∀ det, errors (weave det ms) = errors ms := by
  have hd : ∀ l : List String, errors (l.map fun s => (⟨.DETAIL, s⟩ : Msg)) = [] := fun l => by
    simp [errors]
  induction ms with
  | nil => intro det; exact hd _
  | cons m ms ih =>
    intro det
    show List.filter _ _ = _
    rw [weave, List.filter_append]
    have h1 := hd (det 0)
    have h2 := ih fun n => det (n + 1)
    simp only [errors] at h1 h2 ⊢
    rw [h1, List.nil_append, List.filter_cons, List.filter_cons, h2]

theorem infos_weave (ms : List Msg) : ∀ det, infos (weave det ms) = infos ms := by
  have hd : ∀ l : List String, infos (l.map fun s => (⟨.DETAIL, s⟩ : Msg)) = [] := fun l => by
    simp [infos]
  induction ms with
  | nil => intro det; exact hd _
  | cons m ms ih =>
    intro det
    show List.filter _ _ = _
    rw [weave, List.filter_append]
    have h1 := hd (det 0)
    have h2 := ih fun n => det (n + 1)
    simp only [infos] at h1 h2 ⊢
    rw [h1, List.nil_append, List.filter_cons, List.filter_cons, h2]

theorem shown_append (v : LogLevel) (p : String) (xs ys : List Msg) : shown v p (xs ++ ys) = shown v p xs ++ shown v p ys := by
  induction xs with
  | nil => simp [shown]
  | cons x xs ih => simp only [List.cons_append, shown, ih, String.append_assoc]

/-- the DETAIL messages are visible at level DEEP only -/
theorem shown_weave {v : LogLevel} (hv : v ≠ .DEEP) (p : String) (ms : List Msg) :
    ∀ det, shown v p (weave det ms) = shown v p ms := by
  have hn : visible v .DETAIL = false := by cases v <;> simp_all [visible]
  have hd : ∀ l : List String, shown v p (l.map fun s => (⟨.DETAIL, s⟩ : Msg)) = "" := fun l => by
    induction l with
    | nil => rfl
    | cons s l ih => simp only [List.map_cons, shown, hn, ih]; rfl
  induction ms with
  | nil => intro det; exact hd _
  | cons m ms ih =>
    intro det
    rw [weave, shown_append, hd, String.empty_append, shown, ih, shown]

variable {k : Kind}

/-- a call in a program with logging -/
theorem LogWorld.call_ok {sp : Speaker k} {w w' : LogWorld k} {i : Nat} {op : k.Op} {e : Said} {out : Option k.Out}
    {ms : List Msg} (h : w.step sp (.act (.call i op) e) = .ok (w', out, ms)) :
    ∃ o c b r, w.world.objs i = some o ∧ w.world.heap o.ptr = some c ∧
      (k.viaOwner op = false → b = o) ∧ k.step b.body c.opt op = .ok r ∧
      out = some r.2.2 ∧ ms = weave e.details (sp.speak o.body c.opt op r.2.2 e) := by
  simp only [step, bind_eq_ok] at h
  obtain ⟨q, hq, l, -, h⟩ := h
  cases h
  simp only [World.step, bind_eq_ok] at hq
  obtain ⟨o, ho, c, hc, b, hb, r, hr, hq⟩ := hq
  have ho' : w.world.objs i = some o := by
    unfold World.obj at ho
    split at ho
    · cases ho; assumption
    · cases ho
  have hc' : w.world.heap o.ptr = some c := by
    unfold World.cell at hc
    split at hc
    · cases hc; assumption
    · cases hc
  cases hq
  refine ⟨o, c, b, r, ho', hc', fun hv => ?_, hr, rfl, ?_⟩
  · rw [hv] at hb
    simp only [Bool.false_eq_true, if_false] at hb
    rw [ho] at hb
    cases hb
    rfl
  · simp only [messages, World.view, ho', hc']

variable {K : Type} [Field K] [DecidableEq K]

/-- the linear controller writes an error message exactly when it returns false -/
theorem linear_speaks {m m' : LMpc K} {op : LOp K} {out : LOut K} {num : Ext K → String} {o : LOpt K} {e : Said}
    (hn : ¬ Solves op) (h : m.step op = .ok (m', out)) :
    (out ≠ .bool false ∧ (linearSpeaker K num).speak (m.d, m.b) o op out e = []) ∨
      (out = .bool false ∧ (linearSpeaker K num).speak (m.d, m.b) o op out e = [⟨.ERROR, refusal op⟩]) := by
  have hs : ∀ {h : Nat} {sl : HorizonSlice} {whole loop : Exec (LMpc K × LOut K)} (t : String),
      Always whole LMpc.SaysYes → Always loop LMpc.SaysYes → LMpc.sliceOp m h sl whole loop = .ok (m', out) →
      (out ≠ .bool false ∧ sliceMsgs t h sl = []) ∨ (out = .bool false ∧ sliceMsgs t h sl = [⟨.ERROR, t⟩]) := by
    intro h sl whole loop t hw hl hr
    rcases LMpc.sliceOp_says t hw hl _ hr with ⟨h1, h2⟩ | h1
    · refine .inl ⟨?_, h2⟩
      simp only at h1
      rw [h1]
      intro hc
      cases hc
    · exact .inr h1
  have hy : ∀ {x : Exec (LMpc K × LOut K)}, Always x LMpc.SaysYes → x = .ok (m', out) → out ≠ .bool false := by
    intro x hx he
    have : out = .bool true := hx _ he
    rw [this]
    intro hc
    cases hc
  cases op with
  | setStateSpaceModel A B C => simp only [LMpc.step] at h; exact .inl ⟨hy (LMpc.onBuilder_yes Builder.setStateModel_yes) h, rfl⟩
  | setDisturbances A B => simp only [LMpc.step] at h; exact .inl ⟨hy (LMpc.onBuilder_yes Builder.setExogenousInput_yes) h, rfl⟩
  | setObjectiveWeights A B C => simp only [LMpc.step] at h; exact .inl ⟨hy (LMpc.onBuilder_yes Builder.setObjective_yes) h, rfl⟩
  | setObjectiveWeightsSlice A B C sl =>
    exact hs predictionText (.bind fun _ => .bind fun _ => .bind fun _ => LMpc.onBuilder_yes Builder.setObjective_yes)
      (LMpc.onBuilder_yes (sliceLoop_yes (fun _ _ => Builder.setObjectiveAt_yes) _ _))
      ((LMpc.setObjectiveWeightsSlice_eq A B C sl).symm.trans h)
  | setStateBounds A B => simp only [LMpc.step] at h; exact .inl ⟨hy (LMpc.onBuilder_yes Builder.setStateBounds_yes) h, rfl⟩
  | setStateBoundsSlice A B sl =>
    exact hs predictionText (.bind fun _ => .bind fun _ => LMpc.onBuilder_yes Builder.setStateBounds_yes)
      (LMpc.onBuilder_yes (sliceLoop_yes (fun _ _ => Builder.setStateBoundsAt_yes) _ _))
      ((LMpc.setStateBoundsSlice_eq A B sl).symm.trans h)
  | setInputBounds A B => simp only [LMpc.step] at h; exact .inl ⟨hy (LMpc.onBuilder_yes Builder.setInputBounds_yes) h, rfl⟩
  | setInputBoundsSlice A B sl =>
    exact hs controlText (.bind fun _ => .bind fun _ => LMpc.onBuilder_yes Builder.setInputBounds_yes)
      (LMpc.onBuilder_yes (sliceLoop_yes (fun _ _ => Builder.setInputBoundsAt_yes) _ _))
      ((LMpc.setInputBoundsSlice_eq A B sl).symm.trans h)
  | setOutputBounds A B => simp only [LMpc.step] at h; exact .inl ⟨hy (LMpc.onBuilder_yes Builder.setOutputBounds_yes) h, rfl⟩
  | setOutputBoundsSlice A B sl =>
    exact hs predictionText (.bind fun _ => .bind fun _ => LMpc.onBuilder_yes Builder.setOutputBounds_yes)
      (LMpc.onBuilder_yes (sliceLoop_yes (fun _ _ => Builder.setOutputBoundsAt_yes) _ _))
      ((LMpc.setOutputBoundsSlice_eq A B sl).symm.trans h)
  | setScalarConstraintSlice A B X U sl =>
    exact hs predictionText (.bind fun _ => .bind fun _ => LMpc.onBuilder_yes Builder.setScalarConstraint_yes)
      (LMpc.onBuilder_yes (sliceLoop_yes (fun _ _ => Builder.setScalarConstraintAt_yes) _ _))
      ((LMpc.setScalarConstraintSlice_eq A B X U sl).symm.trans h)
  | setScalarConstraintAt i A B X U =>
    have h : m.setScalarConstraintAt i A B X U = .ok (m', out) := h
    unfold LMpc.setScalarConstraintAt at h
    by_cases hi : i ≥ m.d.ph
    · rw [if_pos hi] at h
      cases h
      exact .inr ⟨rfl, if_pos hi⟩
    · rw [if_neg hi] at h
      exact .inl ⟨hy (LMpc.onBuilder_yes Builder.setScalarConstraintAt_yes) h, if_neg hi⟩
  | setExogenousInputs A => simp only [LMpc.step] at h; exact .inl ⟨hy (LMpc.onOptimizer_yes (always_ok (by rfl))) h, rfl⟩
  | setExogenousInputsSlice v sl =>
    exact hs controlText (.bind fun _ => LMpc.onOptimizer_yes (always_ok (by rfl)))
      (LMpc.onOptimizer_yes (sliceLoop_yes (fun _ _ => .bind fun _ => always_ok rfl) _ _))
      ((LMpc.setExogenousInputsSlice_eq v sl).symm.trans h)
  | setReferences A B C => simp only [LMpc.step] at h; exact .inl ⟨hy (LMpc.onOptimizer_yes (always_ok (by rfl))) h, rfl⟩
  | setReferencesSlice A B C sl =>
    exact hs predictionText (.bind fun _ => .bind fun _ => .bind fun _ => LMpc.onOptimizer_yes (always_ok (by rfl)))
      (LMpc.onOptimizer_yes (sliceLoop_yes (fun _ _ => .bind fun _ => .bind fun _ => .bind fun _ => always_ok rfl) _ _))
      ((LMpc.setReferencesSlice_eq A B C sl).symm.trans h)
  | setOptimizerParameters p =>
    have h : (m.o.setParameters p >>= fun o => Except.ok ({ m with o := o }, LOut.unit)) = Except.ok (m', out) := h
    rw [bind_eq_ok] at h
    obtain ⟨o, -, h⟩ := h
    cases h
    exact .inl ⟨(by intro hc; cases hc), rfl⟩
  | setSolverWarmStart x y => cases h; exact .inl ⟨(by intro hc; cases hc), rfl⟩
  | setDiscretizationSamplingTime ts => cases h; exact .inl ⟨(by intro hc; cases hc), rfl⟩
  | setInputScale s => cases h; exact .inl ⟨(by intro hc; cases hc), rfl⟩
  | setStateScale s => cases h; exact .inl ⟨(by intro hc; cases hc), rfl⟩
  | optimize x0 u0 oc => exact absurd trivial hn

end Mpc

namespace Mpc
open Mpc.Spec Exec
variable {k : Kind}

/-- a step on the controllers succeeds with logging when it succeeds without and the stream is not null -/
theorem LogWorld.step_total {sp : Speaker k} {w : LogWorld k} {op : WOp k} {e : Said} {r : World k × Option k.Out}
    (h : w.world.step op = .ok r) (hs : w.log.os ≠ none) :
    ∃ l, w.step sp (.act op e) = .ok (⟨r.1, l⟩, r.2, messages sp w.world op r.2 e) ∧ l.os = w.log.os := by
  obtain ⟨l, hl⟩ := exec_total ((messages sp w.world op r.2 e).flatMap Msg.ops) w.log hs (by
    intro hm
    obtain ⟨m, -, hm⟩ := List.mem_flatMap.1 hm
    simp [Msg.ops] at hm)
  exact ⟨l, by simp only [step, h, ok_bind, hl]; rfl, (say_all hl).1⟩

/-- a program on the controllers succeeds with logging -/
theorem LogWorld.run_total {sp : Speaker k} (e : Said) : ∀ {ops : List (WOp k)} {w : LogWorld k} {q},
    w.world.run ops = .ok q → w.log.os ≠ none →
    ∃ l outs, w.run sp (ops.map fun op => .act op e) = .ok (⟨q.1, l⟩, outs) ∧ l.os = w.log.os := by
  intro ops
  induction ops with
  | nil =>
    intro w q h hs
    cases h
    exact ⟨_, _, rfl, rfl⟩
  | cons op ops ih =>
    intro w q h hs
    simp only [World.run, bind_eq_ok] at h
    obtain ⟨r, hr, t, ht, h⟩ := h
    cases h
    obtain ⟨l, hl, ho⟩ := step_total (sp := sp) (e := e) hr hs
    obtain ⟨l', outs, h2, ho'⟩ := ih (w := ⟨r.1, l⟩) ht (by rw [ho]; exact hs)
    refine ⟨l', (r.2, messages sp w.world op r.2 e) :: outs, ?_, ho'.trans ho⟩
    simp only [List.map_cons, LogWorld.run, hl, ok_bind, h2]
    rfl

theorem LogWorld.run_snoc {sp : Speaker k} {a : LAct k} : ∀ {acts : List (LAct k)} {w w' : LogWorld k} {outs r},
    w.run sp acts = .ok (w', outs) → w'.step sp a = .ok r → w.run sp (acts ++ [a]) = .ok (r.1, outs ++ [r.2]) := by
  intro acts
  induction acts with
  | nil =>
    intro w w' outs r h hs
    cases h
    simp only [List.nil_append, run, hs, ok_bind]
    rfl
  | cons b acts ih =>
    intro w w' outs r h hs
    simp only [run, bind_eq_ok] at h
    obtain ⟨q, hq, t, ht, h⟩ := h
    cases h
    simp only [List.cons_append, run, hq, ok_bind, ih ht hs]
    rfl

end Mpc

namespace Mpc
open Mpc.Spec Exec
set_option linter.unusedSectionVars false
variable {d : Dims} {K : Type} [Field K] [LinearOrder K]

theorem NlMpc.sliceBounds_says {m : NlMpc d K} {h : Nat} {sl : HorizonSlice} {set : NlOpt K → Exec (NlOpt K × Bool)}
    (t : String) (hs : ∀ o, Always (set o) Yes) : Always (m.sliceBounds h sl set) fun r =>
      (r.2 = .bool true ∧ sliceMsgs t h sl = []) ∨ (r.2 = .bool false ∧ sliceMsgs t h sl = [⟨.ERROR, t⟩]) := by
  unfold sliceBounds sliceMsgs
  by_cases hu : isSliceUnset sl = true
  · rw [if_pos hu, if_pos hu]
    simp only [ok_bind, if_true]
    exact .bind' (hs _) fun a ha => always_ok (.inl ⟨by simp only [ha]; rfl, trivial⟩)
  · rw [if_neg hu, if_neg hu]
    cases hv : isSliceValid h sl with
    | error e => intro a ha; cases ha
    | ok v =>
      cases v with
      | false => simp only [ok_bind]; exact always_ok (.inr ⟨rfl, trivial⟩)
      | true =>
        simp only [ok_bind, if_true]
        exact .bind' (hs _) fun a ha => always_ok (.inl ⟨by simp only [ha]; rfl, trivial⟩)

theorem NlMpc.matrixBounds_says {m : NlMpc d K} {h : Nat} {mn mx : Mat (Ext K)}
    {set : NlOpt K → Vec (Ext K) → Vec (Ext K) → HorizonSlice → Exec (NlOpt K × Bool)}
    (hs : ∀ o l u s, Always (set o l u s) Yes) : Always (m.matrixBounds h mn mx set) fun r => r.2 = .bool true := by
  unfold matrixBounds
  refine .bind' (P := Yes) ?_ fun a ha => always_ok (by simp only [ha])
  unfold forRange
  have : ∀ n i (q : NlOpt K × Bool), Yes q → Always (forFrom i n q fun i q => do
      let l ← mn.col i
      let u ← mx.col i
      let r ← set q.1 l u ⟨(i : Int), (i : Int) + 1⟩
      return (r.1, q.2 && r.2)) Yes := by
    intro n
    induction n with
    | zero => intro i q hq; exact always_ok hq
    | succ n ih =>
      intro i q hq
      rw [forFrom]
      refine .bind' (P := Yes) (.bind fun l => .bind fun u => .bind' (hs _ _ _ _) fun a ha => always_ok ?_)
        fun a ha => ih _ _ ha
      simp only [Yes] at hq ha ⊢
      rw [hq, ha]; rfl
  exact this _ _ _ rfl

theorem NlOpt.setStateBounds_yes {o : NlOpt K} {l u s} : Always (o.setStateBounds d l u s) Yes := by
  unfold setStateBounds
  exact .bind fun _ => always_ok rfl

theorem NlOpt.setInputBounds_yes {o : NlOpt K} {l u s} : Always (o.setInputBounds d l u s) Yes := by
  unfold setInputBounds
  exact .bind fun _ => always_ok rfl

/-- the nonlinear controller, `setStateSpaceFunction` and `optimize` aside, writes an error message exactly when it returns false or throws -/
theorem nonlinear_speaks {m m' : NlMpc d K} {op : NlCall d K} {out : NlOut K} {num : Ext K → String} {o : NlMpc d K} {e : Said}
    (hn : ¬ NlSolves op) (hm : ¬ SetsModel op) (h : m.step op = .ok (m', out)) :
    ((out ≠ .bool false ∧ out ≠ .threw) ∧ (nonlinearSpeaker d K num).speak () o op out e = []) ∨
      ((out = .bool false ∨ out = .threw) ∧ (nonlinearSpeaker d K num).speak () o op out e = [⟨.ERROR, nlRefusal op⟩]) := by
  have hu : ∀ {α} {x : Exec α} {f : α → NlMpc d K} {t : NlOut K}, (t = .bool true ∨ t = .unit) →
      (x >>= fun a => Except.ok (f a, t)) = .ok (m', out) → out ≠ .bool false ∧ out ≠ .threw := by
    intro α x f t ht h
    rw [bind_eq_ok] at h
    obtain ⟨a, -, h⟩ := h
    cases h
    rcases ht with rfl | rfl <;> exact ⟨(by intro hc; cases hc), (by intro hc; cases hc)⟩
  have hb : out = .bool true → out ≠ .bool false ∧ out ≠ .threw := by
    rintro rfl
    exact ⟨(by intro hc; cases hc), (by intro hc; cases hc)⟩
  cases op with
  | setDiscretizationSamplingTime ts => exact .inl ⟨hu (.inl rfl) h, rfl⟩
  | setOptimizerParameters p => exact .inl ⟨hu (.inr rfl) h, rfl⟩
  | setInputScale v => exact .inl ⟨hu (.inr rfl) h, rfl⟩
  | setStateScale v => exact .inl ⟨hu (.inr rfl) h, rfl⟩
  | setObjectiveFunction f acc => exact .inl ⟨hu (f := fun a : NlMpc d K => { a with o := (a.o.bindObjective acc).1 }) (.inl rfl) h, rfl⟩
  | setStateSpaceFunction F tol acc => exact absurd trivial hm
  | setOutputFunction g => exact .inl ⟨hu (.inl rfl) h, rfl⟩
  | setIneqConFunction F tol acc =>
    exact .inl ⟨hu (f := fun a : NlMpc d K => { a with o := (a.o.bindGroup ⟨.userIneq, Vec.const d.ineq tol⟩ acc).1 }) (.inl rfl) h, rfl⟩
  | setEqConFunction F tol acc =>
    simp only [NlMpc.step, bind_eq_ok] at h
    obtain ⟨_, -, a, -, h⟩ := h
    cases h
    exact .inl ⟨hb rfl, rfl⟩
  | setStateBounds mn mx =>
    have h : m.matrixBounds d.ph mn mx (fun o l u s => o.setStateBounds d l u s) = .ok (m', out) := h
    exact .inl ⟨hb (NlMpc.matrixBounds_says (fun _ _ _ _ => NlOpt.setStateBounds_yes) _ h), rfl⟩
  | setInputBounds mn mx =>
    have h : m.matrixBounds d.ch mn mx (fun o l u s => o.setInputBounds d l u s) = .ok (m', out) := h
    exact .inl ⟨hb (NlMpc.matrixBounds_says (fun _ _ _ _ => NlOpt.setInputBounds_yes) _ h), rfl⟩
  | setOutputBounds mn mx => cases h; exact .inr ⟨.inr rfl, rfl⟩
  | setStateBoundsSlice l u s =>
    have h : m.sliceBounds d.ph s (fun o => o.setStateBounds d l u s) = .ok (m', out) := h
    rcases NlMpc.sliceBounds_says predictionText (fun _ => NlOpt.setStateBounds_yes) _ h with ⟨h1, h2⟩ | ⟨h1, h2⟩
    · exact .inl ⟨hb h1, h2⟩
    · exact .inr ⟨.inl h1, h2⟩
  | setInputBoundsSlice l u s =>
    have h : m.sliceBounds d.ch s (fun o => o.setInputBounds d l u s) = .ok (m', out) := h
    rcases NlMpc.sliceBounds_says controlText (fun _ => NlOpt.setInputBounds_yes) _ h with ⟨h1, h2⟩ | ⟨h1, h2⟩
    · exact .inl ⟨hb h1, h2⟩
    · exact .inr ⟨.inl h1, h2⟩
  | setOutputBoundsSlice l u s => cases h; exact .inr ⟨.inr rfl, rfl⟩
  | optimize x0 u0 cs oc junk => exact absurd trivial hn

end Mpc
