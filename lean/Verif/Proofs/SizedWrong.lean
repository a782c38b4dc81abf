import Verif.Proofs.Sized

/-
User functions whose results have the wrong length: what the evaluations do.
-/
namespace Mpc
open Exec
set_option linter.unusedSectionVars false

/-- a run of a loop begins with the first pass -/
theorem forRange_first {σ : Type} {n : Nat} {s r : σ} {body : Nat → σ → Exec σ} (hn : 0 < n)
    (h : forRange n s body = .ok r) : ∃ s', body 0 s = .ok s' := by
  obtain ⟨k, rfl⟩ : ∃ k, n = k + 1 := ⟨n - 1, by omega⟩
  unfold forRange at h
  rw [forFrom] at h
  obtain ⟨s', hs, -⟩ := bind_eq_ok.1 h
  exact ⟨s', hs⟩

theorem Mat.setRow_size {α : Type} {m r : Mat α} {i : Nat} {v : Vec α} (h : m.setRow i v = .ok r) : v.size = m.cols := by
  unfold Mat.setRow at h
  obtain ⟨_, -, h⟩ := bind_eq_ok.1 h
  obtain ⟨_, h1, -⟩ := bind_eq_ok.1 h
  exact require_eq_ok.1 h1

theorem Mat.setColIn_size {α : Type} {m r : Mat α} {a b j : Nat} {v : Vec α} (h : m.setColIn a b j v = .ok r) :
    v.size = m.rows := by
  unfold Mat.setColIn Mat.setCol at h
  obtain ⟨_, -, h⟩ := bind_eq_ok.1 h
  obtain ⟨_, -, h⟩ := bind_eq_ok.1 h
  obtain ⟨_, h1, -⟩ := bind_eq_ok.1 h
  exact require_eq_ok.1 h1

theorem Vec.subDiv_size {K : Type} [Field K] {v w r : Vec K} {h : K} (e : v.subDiv w h = .ok r) : r.size = v.size := by
  unfold Vec.subDiv at e
  obtain ⟨_, -, e⟩ := bind_eq_ok.1 e
  cases e
  rfl

theorem Vec.add_size {K : Type} [Add K] {v w r : Vec K} (e : v.add w = .ok r) : v.size = w.size ∧ r.size = v.size := by
  unfold Vec.add at e
  obtain ⟨_, h1, e⟩ := bind_eq_ok.1 e
  cases e
  exact ⟨require_eq_ok.1 h1, rfl⟩

theorem Vec.view_size {K : Type} {v : Vec K} {n : Nat} {f : FVec n K} (e : v.view n = .ok f) : v.size = n := by
  unfold Vec.view at e
  obtain ⟨_, h1, -⟩ := bind_eq_ok.1 e
  exact require_eq_ok.1 h1

theorem Mat.row_size {α : Type} {m : Mat α} {i : Nat} {v : Vec α} (e : m.row i = .ok v) : v.size = m.cols := by
  unfold Mat.row at e
  obtain ⟨_, -, e⟩ := bind_eq_ok.1 e
  cases e
  rfl

namespace Sized
variable {d : Dims} {K : Type} [Field K] [LinearOrder K]

/-- an evaluation does not return -/
def Stops {α : Type} (e : Exec α) : Prop := ∀ a, e ≠ .ok a

theorem getOutput_wrong {F : SizedFns d K} {f : FVec d.nx K → FVec d.nu K → Nat → List K} (hf : F.output = some f)
    (hw : SizedSpec.WrongOutput d f) (X U : Mat K) : Stops (getOutput F X U) := by
  intro Y h
  unfold getOutput at h
  rw [hf] at h
  obtain ⟨s', hs⟩ := forRange_first (Nat.succ_pos _) h
  obtain ⟨a, -, hs⟩ := bind_eq_ok.1 hs
  obtain ⟨x, -, hs⟩ := bind_eq_ok.1 hs
  obtain ⟨b, -, hs⟩ := bind_eq_ok.1 hs
  obtain ⟨u, -, hs⟩ := bind_eq_ok.1 hs
  exact hw x u _ (Mat.setRow_size hs)

theorem ineqJacobian_wrong {call : Mat K → Mat K → K → Exec (Vec K)} (hw : ∀ X U e v, call X U e = .ok v → v.size ≠ d.ineq)
    (hp : 0 < d.ph) (hx : 0 < d.nx) (X U : Mat K) (e : K) : Stops (ineqJacobian d call X U e) := by
  intro J h
  unfold ineqJacobian at h
  dsimp only at h
  obtain ⟨r, hr, -⟩ := bind_eq_ok.1 h
  obtain ⟨s1, h1⟩ := forRange_first hp hr
  obtain ⟨s2, h2⟩ := forRange_first hx h1
  obtain ⟨_, -, h2⟩ := bind_eq_ok.1 h2
  obtain ⟨_, -, h2⟩ := bind_eq_ok.1 h2
  obtain ⟨_, -, h2⟩ := bind_eq_ok.1 h2
  obtain ⟨fp, hfp, h2⟩ := bind_eq_ok.1 h2
  obtain ⟨_, -, h2⟩ := bind_eq_ok.1 h2
  obtain ⟨_, -, h2⟩ := bind_eq_ok.1 h2
  obtain ⟨fm, -, h2⟩ := bind_eq_ok.1 h2
  obtain ⟨_, -, h2⟩ := bind_eq_ok.1 h2
  obtain ⟨_, -, h2⟩ := bind_eq_ok.1 h2
  obtain ⟨df, hdf, h2⟩ := bind_eq_ok.1 h2
  obtain ⟨J', hJ, -⟩ := bind_eq_ok.1 h2
  have := Mat.setColIn_size hJ
  rw [Vec.subDiv_size hdf] at this
  exact hw _ _ _ _ hfp this

theorem callIneq_wrong {F : SizedFns d K}
    {f : Traj (d.ph + 1) d.nx K → Traj (d.ph + 1) d.ny K → Traj (d.ph + 1) d.nu K → K → List K}
    (hw : SizedSpec.WrongIneq d f) (X U : Mat K) (e : K) (v : Vec K) (h : callIneq F f X U e = .ok v) : v.size ≠ d.ineq := by
  unfold callIneq at h
  obtain ⟨_, -, h⟩ := bind_eq_ok.1 h
  obtain ⟨_, -, h⟩ := bind_eq_ok.1 h
  obtain ⟨_, -, h⟩ := bind_eq_ok.1 h
  obtain ⟨_, -, h⟩ := bind_eq_ok.1 h
  cases h
  exact hw _ _ _ _

theorem callIneq_wrong_output {F : SizedFns d K} {g : FVec d.nx K → FVec d.nu K → Nat → List K} (hg : F.output = some g)
    (hw : SizedSpec.WrongOutput d g)
    (f : Traj (d.ph + 1) d.nx K → Traj (d.ph + 1) d.ny K → Traj (d.ph + 1) d.nu K → K → List K)
    (X U : Mat K) (e : K) : Stops (callIneq F f X U e) := by
  intro v h
  unfold callIneq at h
  obtain ⟨Y, hY, h⟩ := bind_eq_ok.1 h
  exact getOutput_wrong hg hw X U Y hY

theorem callState_wrong {F : SizedFns d K} {f : FVec d.nx K → FVec d.nu K → Nat → List K} (hf : F.state = some f)
    (hw : SizedSpec.WrongState d f) {x u : Vec K} {p : Nat} {v : Vec K} (h : callState F x u p = .ok v) :
    x.size = d.nx ∧ v.size ≠ d.nx := by
  unfold callState at h
  rw [hf] at h
  obtain ⟨x', hx, h⟩ := bind_eq_ok.1 h
  obtain ⟨_, -, h⟩ := bind_eq_ok.1 h
  cases h
  exact ⟨Vec.view_size hx, hw _ _ _⟩

theorem dynamics_wrong {F : SizedFns d K} {f : FVec d.nx K → FVec d.nu K → Nat → List K} (hf : F.state = some f)
    (hw : SizedSpec.WrongState d f) (hp : 0 < d.ph) (mp : Mapping K) (cont : Bool) (Ts : K) (junk : Nat → K) (X U : Mat K)
    (ceq : Vec K) (Jceq : Mat K) (g : Bool) : Stops (dynamics d mp cont Ts junk (callState F) X U ceq Jceq g) := by
  intro q h
  unfold dynamics at h
  dsimp only at h
  obtain ⟨r, hr, -⟩ := bind_eq_ok.1 h
  obtain ⟨s1, h1⟩ := forRange_first hp hr
  cases cont with
  | true =>
    rw [if_pos rfl] at h1
    unfold continuousStep at h1
    dsimp only at h1
    obtain ⟨uk, -, h1⟩ := bind_eq_ok.1 h1
    obtain ⟨xk, hxk, h1⟩ := bind_eq_ok.1 h1
    obtain ⟨xk1, -, h1⟩ := bind_eq_ok.1 h1
    obtain ⟨fk, hfk, h1⟩ := bind_eq_ok.1 h1
    obtain ⟨fk1, -, h1⟩ := bind_eq_ok.1 h1
    obtain ⟨a, ha, h1⟩ := bind_eq_ok.1 h1
    obtain ⟨b, hb, h1⟩ := bind_eq_ok.1 h1
    obtain ⟨k1, k2⟩ := callState_wrong hf hw hfk
    obtain ⟨-, ha⟩ := Vec.add_size ha
    obtain ⟨hb, -⟩ := Vec.add_size hb
    apply k2
    rw [← ha]
    exact (hb.symm.trans k1 : a.size = d.nx)
  | false =>
    rw [if_neg (by simp)] at h1
    unfold discreteStep at h1
    dsimp only at h1
    obtain ⟨uk, -, h1⟩ := bind_eq_ok.1 h1
    obtain ⟨xk, hxk, h1⟩ := bind_eq_ok.1 h1
    obtain ⟨xk1, hk, h1⟩ := bind_eq_ok.1 h1
    obtain ⟨a, ha, h1⟩ := bind_eq_ok.1 h1
    obtain ⟨b, hb, h1⟩ := bind_eq_ok.1 h1
    obtain ⟨k1, k2⟩ := callState_wrong hf hw hk
    obtain ⟨hb, -⟩ := Vec.add_size hb
    apply k2
    have e1 := Mat.row_size hxk
    have e2 := Mat.row_size ha
    exact (hb.symm.trans (e2.trans (e1.symm.trans k1)) : xk1.size = d.nx)

variable {F : SizedFns d K} (s : NlState d K) [IsStrictOrderedRing K]

theorem evalIneq_wrong {f : Traj (d.ph + 1) d.nx K → Traj (d.ph + 1) d.ny K → Traj (d.ph + 1) d.nu K → K → List K}
    (hf : F.ineq = some f) (hw : SizedSpec.WrongIneq d f) (hp : 0 < d.ph) (hx : 0 < d.nx) (z : Vec K) (junk : Nat → K) :
    Stops (evalIneq F s z junk) := by
  intro r h
  unfold evalIneq at h
  rw [hf] at h
  dsimp only at h
  obtain ⟨w, -, h⟩ := bind_eq_ok.1 h
  obtain ⟨v, -, h⟩ := bind_eq_ok.1 h
  obtain ⟨J, hJ, h⟩ := bind_eq_ok.1 h
  exact ineqJacobian_wrong (callIneq_wrong hw) hp hx _ _ _ J hJ

theorem evalIneq_wrong_output {g : FVec d.nx K → FVec d.nu K → Nat → List K} (hg : F.output = some g)
    (hw : SizedSpec.WrongOutput d g)
    {f : Traj (d.ph + 1) d.nx K → Traj (d.ph + 1) d.ny K → Traj (d.ph + 1) d.nu K → K → List K}
    (hf : F.ineq = some f) (z : Vec K) (junk : Nat → K) : Stops (evalIneq F s z junk) := by
  intro r h
  unfold evalIneq at h
  rw [hf] at h
  dsimp only at h
  obtain ⟨w, -, h⟩ := bind_eq_ok.1 h
  obtain ⟨v, hv, h⟩ := bind_eq_ok.1 h
  exact callIneq_wrong_output hg hw f _ _ _ v hv

theorem evalDyn_wrong {f : FVec d.nx K → FVec d.nu K → Nat → List K} (hf : F.state = some f)
    (hw : SizedSpec.WrongState d f) (hp : 0 < d.ph) (z : Vec K) (g : Bool) (junk : Nat → K) :
    Stops (evalDyn F s z g junk) := by
  intro r h
  unfold evalDyn at h
  dsimp only at h
  obtain ⟨w, -, h⟩ := bind_eq_ok.1 h
  obtain ⟨v, hv, h⟩ := bind_eq_ok.1 h
  exact dynamics_wrong hf hw hp _ _ _ _ _ _ _ _ _ v hv

theorem evalObj_wrong {g : FVec d.nx K → FVec d.nu K → Nat → List K} (hg : F.output = some g)
    (hw : SizedSpec.WrongOutput d g) (z : Vec K) (b : Bool) : Stops (evalObj F s z b) := by
  intro r h
  unfold evalObj objective at h
  dsimp only at h
  obtain ⟨q, hq, -⟩ := bind_eq_ok.1 h
  obtain ⟨w, -, hq⟩ := bind_eq_ok.1 hq
  obtain ⟨v, hv, hq⟩ := bind_eq_ok.1 hq
  unfold callObj at hv
  obtain ⟨Y, hY, -⟩ := bind_eq_ok.1 hv
  exact getOutput_wrong hg hw _ _ Y hY

/-- a callback at which the evaluation stops, whatever the state -/
theorem callbacks_stop {o : NlOpt K} {cs : List (NlCallback K)} {c : NlCallback K} (hc : c ∈ cs)
    (h : ∀ s : NlState d K, Stops (serve F o s c)) : Stops (callbacks F o s cs) := by
  induction cs using List.reverseRecOn with
  | nil => cases hc
  | append_singleton cs c' ih =>
    intro s' hs
    rw [callbacks_snoc] at hs
    obtain ⟨s1, h1, hs⟩ := bind_eq_ok.1 hs
    rcases List.mem_append.1 hc with hc | hc
    · exact ih hc s1 h1
    · obtain rfl : c = c' := by simpa using hc
      obtain ⟨r, hr, -⟩ := bind_eq_ok.1 hs
      exact h s1 r hr

theorem serve_stop {o : NlOpt K} {i : Nat} {z : Vec K} {g : Bool} {junk : Nat → K} {k : NlGroupKind}
    (hk : (o.groups.map (·.kind))[i]? = some k)
    (h : ∀ b, Stops (conWrapper F s k b z junk)) : Stops (serve F o s (.con i z g junk)) := by
  intro r hr
  simp only [serve] at hr
  rw [List.getElem?_map] at hk
  cases hg : o.groups[i]? with
  | none => rw [hg] at hk; cases hk
  | some grp =>
    rw [hg] at hk hr
    obtain rfl : grp.kind = k := by simpa using hk
    dsimp only at hr
    obtain ⟨q, hq, -⟩ := bind_eq_ok.1 hr
    exact h _ q hq

/-- an evaluation which stops makes its wrapper stop -/
theorem conWrapper_stop_ineq {z : Vec K} {junk : Nat → K} (h : Stops (evalIneq F s z junk)) (b : NlBuffers K) :
    Stops (conWrapper F s .userIneq b z junk) := by
  intro r hr
  obtain ⟨q, hq, -⟩ := bind_eq_ok.1 hr
  exact h q hq

theorem conWrapper_stop_dyn {z : Vec K} {junk : Nat → K} (h : ∀ g, Stops (evalDyn F s z g junk)) (b : NlBuffers K) :
    Stops (conWrapper F s .dynamics b z junk) := by
  intro r hr
  obtain ⟨q, hq, -⟩ := bind_eq_ok.1 hr
  exact h _ q hq

theorem serve_stop_obj {o : NlOpt K} (ho : o.objective = true) {z : Vec K} {g : Bool} {junk : Nat → K}
    (h : ∀ g, Stops (evalObj F s z g)) : Stops (serve F o s (.obj z g junk)) := by
  intro r hr
  simp only [serve, ho, if_true] at hr
  obtain ⟨q, hq, -⟩ := bind_eq_ok.1 hr
  unfold objWrapper at hq
  obtain ⟨t, ht, -⟩ := bind_eq_ok.1 hq
  exact h _ t ht

end Sized
end Mpc

namespace Mpc
open Exec
namespace Sized
variable {d : Dims} {K : Type} [Field K] [LinearOrder K] [IsStrictOrderedRing K]

theorem run_snoc (junk : Nat → K) (ops : List (SizedCall d K)) (c : SizedCall d K) :
    run d junk (ops ++ [c]) = run d junk ops >>= fun q => do
      let r ← step q.1 c
      return (r.1, q.2 ++ [r.2]) := by
  unfold run
  rw [List.foldl_append]
  rfl

/-- what the solver object has been given is the same -/
structure SameSolver (o o' : NlOpt K) : Prop where
  groups : o'.groups = o.groups
  objective : o'.objective = o.objective

theorem SameSolver.trans {o o' o'' : NlOpt K} (h : SameSolver o o') (h' : SameSolver o' o'') : SameSolver o o'' :=
  ⟨h'.groups.trans h.groups, h'.objective.trans h.objective⟩

theorem setStateBounds_same {o : NlOpt K} {lo up : Vec (Ext K)} {sl : HorizonSlice} {r : NlOpt K × Bool}
    (h : o.setStateBounds d lo up sl = .ok r) : SameSolver o r.1 := by
  unfold NlOpt.setStateBounds at h
  obtain ⟨b, -, h⟩ := bind_eq_ok.1 h
  cases h
  exact ⟨rfl, rfl⟩

theorem setInputBounds_same {o : NlOpt K} {lo up : Vec (Ext K)} {sl : HorizonSlice} {r : NlOpt K × Bool}
    (h : o.setInputBounds d lo up sl = .ok r) : SameSolver o r.1 := by
  unfold NlOpt.setInputBounds at h
  obtain ⟨b, -, h⟩ := bind_eq_ok.1 h
  cases h
  exact ⟨rfl, rfl⟩

theorem slice_same {m : NlMpc d K} {n : Nat} {sl : HorizonSlice} {st : NlOpt K → Exec (NlOpt K × Bool)}
    (hst : ∀ o r, st o = .ok r → SameSolver o r.1) {r : NlMpc d K × NlOut K} (h : m.sliceBounds n sl st = .ok r) :
    SameSolver m.o r.1.o := by
  unfold NlMpc.sliceBounds at h
  have key : ∀ v : Bool, (if v = true then do
        let r ← st m.o
        pure ({ s := m.s, o := r.1, dynamic := m.dynamic }, NlOut.bool (true && r.2))
      else pure (m, NlOut.bool false) : Exec (NlMpc d K × NlOut K)) = .ok r → SameSolver m.o r.1.o := by
    intro v h
    by_cases hv : v = true
    · rw [if_pos hv] at h
      obtain ⟨q, hq, h⟩ := bind_eq_ok.1 h
      cases h
      exact hst _ _ hq
    · rw [if_neg hv] at h
      cases h
      exact ⟨rfl, rfl⟩
  dsimp only at h
  by_cases hu : isSliceUnset sl = true
  · rw [if_pos hu] at h
    exact key true h
  · rw [if_neg hu] at h
    obtain ⟨v, -, h⟩ := bind_eq_ok.1 h
    exact key v h

theorem matrix_same {m : NlMpc d K} {n : Nat} {mn mx : Mat (Ext K)}
    {st : NlOpt K → Vec (Ext K) → Vec (Ext K) → HorizonSlice → Exec (NlOpt K × Bool)}
    (hst : ∀ o l u s r, st o l u s = .ok r → SameSolver o r.1) {r : NlMpc d K × NlOut K}
    (h : m.matrixBounds n mn mx st = .ok r) : SameSolver m.o r.1.o := by
  unfold NlMpc.matrixBounds at h
  obtain ⟨v, hv, h⟩ := bind_eq_ok.1 h
  cases h
  unfold forRange at hv
  refine forFrom_inv (fun _ q => SameSolver m.o q.1) ⟨rfl, rfl⟩ ?_ hv
  intro i t t' _ _ ht hs
  obtain ⟨l, -, hs⟩ := bind_eq_ok.1 hs
  obtain ⟨u, -, hs⟩ := bind_eq_ok.1 hs
  obtain ⟨q, hq, hs⟩ := bind_eq_ok.1 hs
  cases hs
  exact (ht.trans (hst _ _ _ _ q hq) : SameSolver m.o q.1)

theorem plain_same {m : NlMpc d K} {c : NlCall d K} (hp : c.plain = true) (hd : m.dynamic = true)
    {r : NlMpc d K × NlOut K} (h : m.step c = .ok r) :
    r.1.o.groups = m.o.groups ∧
      r.1.o.objective = (m.o.objective || match c with | .setObjectiveFunction _ true => true | _ => false) := by
  have of : SameSolver m.o r.1.o → r.1.o.groups = m.o.groups ∧ r.1.o.objective = (m.o.objective || false) :=
    fun h => ⟨h.groups, by rw [h.objective, Bool.or_false]⟩
  cases c with
  | setStateSpaceFunction => cases hp
  | setOutputFunction => cases hp
  | setIneqConFunction => cases hp
  | optimize => cases hp
  | setDiscretizationSamplingTime ts =>
    cases h
    exact of ⟨rfl, rfl⟩
  | setOptimizerParameters p =>
    simp only [NlMpc.step] at h
    obtain ⟨o, ho, h⟩ := bind_eq_ok.1 h
    cases h
    refine of ?_
    cases p with
    | other => cases ho
    | nonlinear p =>
      simp only [NlOpt.setParameters] at ho
      obtain ⟨o', ho', ho⟩ := bind_eq_ok.1 ho
      cases ho
      unfold NlOpt.pinSlack at ho'
      by_cases hh : p.hard_constraints = true
      · rw [if_pos hh] at ho'
        obtain ⟨_, -, ho'⟩ := bind_eq_ok.1 ho'
        obtain ⟨_, -, ho'⟩ := bind_eq_ok.1 ho'
        cases ho'
        exact ⟨rfl, rfl⟩
      · rw [if_neg hh] at ho'
        cases ho'
        exact ⟨rfl, rfl⟩
  | setInputScale v =>
    simp only [NlMpc.step, NlMpc.onState, NlState.exec] at h
    obtain ⟨o, ho, h⟩ := bind_eq_ok.1 h
    cases h
    obtain ⟨t, ht, ho⟩ := bind_eq_ok.1 ho
    cases ho
    exact of ⟨rfl, rfl⟩
  | setStateScale v =>
    cases h
    exact of ⟨rfl, rfl⟩
  | setObjectiveFunction f acc =>
    cases h
    cases acc with
    | true => exact ⟨rfl, by simp [NlOpt.bindObjective]⟩
    | false => exact ⟨rfl, by simp [NlOpt.bindObjective]⟩
  | setEqConFunction f tol acc =>
    simp only [NlMpc.step] at h
    obtain ⟨o, ho, h⟩ := bind_eq_ok.1 h
    have := require_eq_ok.1 ho
    rw [hd] at this
    cases this
  | setStateBounds =>
    simp only [NlMpc.step] at h
    exact of (matrix_same (fun o l u s r h => setStateBounds_same h) h)
  | setInputBounds =>
    simp only [NlMpc.step] at h
    exact of (matrix_same (fun o l u s r h => setInputBounds_same h) h)
  | setOutputBounds =>
    cases h
    exact of ⟨rfl, rfl⟩
  | setStateBoundsSlice =>
    simp only [NlMpc.step] at h
    exact of (slice_same (fun o r h => setStateBounds_same h) h)
  | setInputBoundsSlice =>
    simp only [NlMpc.step] at h
    exact of (slice_same (fun o r h => setInputBounds_same h) h)
  | setOutputBoundsSlice =>
    cases h
    exact of ⟨rfl, rfl⟩

theorem optimize_same {F : SizedFns d K} {m : NlMpc d K} {x0 u0 : Vec K} {cs : List (NlCallback K)} {out : NlOutcome K}
    {junk : Nat → K} {r : NlMpc d K × NlOut K} (h : optimize F m x0 u0 cs out junk = .ok r) :
    SameSolver m.o r.1.o ∧ r.1.dynamic = m.dynamic := by
  unfold optimize NlMpc.onState at h
  simp only [NlState.exec, ok_bind, pure_bind'] at h
  obtain ⟨p, -, h⟩ := bind_eq_ok.1 h
  obtain ⟨s, -, h⟩ := bind_eq_ok.1 h
  obtain ⟨m', hm, h⟩ := bind_eq_ok.1 h
  cases h
  cases out with
  | threw =>
    cases hm
    exact ⟨⟨rfl, rfl⟩, rfl⟩
  | answered z value code ct =>
    simp only [finish] at hm
    cases ct with
    | true =>
      rw [if_pos rfl] at hm
      cases hm
      exact ⟨⟨rfl, rfl⟩, rfl⟩
    | false =>
      rw [if_neg (by simp)] at hm
      obtain ⟨f, -, hm⟩ := bind_eq_ok.1 hm
      unfold accept at hm
      obtain ⟨_, -, hm⟩ := bind_eq_ok.1 hm
      obtain ⟨_, -, hm⟩ := bind_eq_ok.1 hm
      obtain ⟨_, -, hm⟩ := bind_eq_ok.1 hm
      obtain ⟨_, -, hm⟩ := bind_eq_ok.1 hm
      obtain ⟨_, -, hm⟩ := bind_eq_ok.1 hm
      obtain ⟨_, -, hm⟩ := bind_eq_ok.1 hm
      cases hm
      exact ⟨⟨rfl, rfl⟩, rfl⟩

/-- what is known of the controller after a history of calls -/
structure Known (ops : List (SizedCall d K)) (m : NlMpc d K) (F : SizedFns d K) : Prop where
  state : F.state = SizedSpec.stateFn ops
  output : F.output = SizedSpec.outputFn ops
  ineq : F.ineq = SizedSpec.ineqFn ops
  groups : m.o.groups.map (·.kind) = SizedSpec.constraints ops
  objective : m.o.objective = SizedSpec.hasObjective ops
  dynamic : m.dynamic = true

theorem step_known {ops : List (SizedCall d K)} {m : NlMpc d K} {F : SizedFns d K} (k : Known ops m F) {c : SizedCall d K}
    {r : (NlMpc d K × SizedFns d K) × NlOut K} (h : step (m, F) c = .ok r) : Known (ops ++ [c]) r.1.1 r.1.2 := by
  cases c with
  | setStateSpaceFunction f tol acc =>
    cases h
    cases acc with
    | true =>
      exact ⟨by simp [SizedSpec.stateFn], by simpa [SizedSpec.outputFn] using k.output, by simpa [SizedSpec.ineqFn] using k.ineq,
        by simp [SizedSpec.constraints, NlOpt.bindGroup] ; simpa [SizedSpec.constraints] using k.groups,
        by simpa [SizedSpec.hasObjective, NlOpt.bindGroup] using k.objective, k.dynamic⟩
    | false =>
      exact ⟨by simp [SizedSpec.stateFn], by simpa [SizedSpec.outputFn] using k.output, by simpa [SizedSpec.ineqFn] using k.ineq,
        by simpa [SizedSpec.constraints, NlOpt.bindGroup] using k.groups,
        by simpa [SizedSpec.hasObjective, NlOpt.bindGroup] using k.objective, k.dynamic⟩
  | setOutputFunction f =>
    cases h
    exact ⟨by simpa [SizedSpec.stateFn] using k.state, by simp [SizedSpec.outputFn], by simpa [SizedSpec.ineqFn] using k.ineq,
      by simpa [SizedSpec.constraints] using k.groups, by simpa [SizedSpec.hasObjective] using k.objective, k.dynamic⟩
  | setIneqConFunction f tol acc =>
    cases h
    cases acc with
    | true =>
      exact ⟨by simpa [SizedSpec.stateFn] using k.state, by simpa [SizedSpec.outputFn] using k.output, by simp [SizedSpec.ineqFn],
        by simp [SizedSpec.constraints, NlOpt.bindGroup] ; simpa [SizedSpec.constraints] using k.groups,
        by simpa [SizedSpec.hasObjective, NlOpt.bindGroup] using k.objective, k.dynamic⟩
    | false =>
      exact ⟨by simpa [SizedSpec.stateFn] using k.state, by simpa [SizedSpec.outputFn] using k.output, by simp [SizedSpec.ineqFn],
        by simpa [SizedSpec.constraints, NlOpt.bindGroup] using k.groups,
        by simpa [SizedSpec.hasObjective, NlOpt.bindGroup] using k.objective, k.dynamic⟩
  | optimize x0 u0 cs out junk =>
    simp only [step] at h
    obtain ⟨q, hq, h⟩ := bind_eq_ok.1 h
    cases h
    obtain ⟨h1, h2⟩ := optimize_same hq
    exact ⟨by simpa [SizedSpec.stateFn] using k.state, by simpa [SizedSpec.outputFn] using k.output,
      by simpa [SizedSpec.ineqFn] using k.ineq, by rw [h1.groups]; simpa [SizedSpec.constraints] using k.groups,
      by rw [h1.objective]; simpa [SizedSpec.hasObjective] using k.objective, h2.trans k.dynamic⟩
  | other c hp =>
    simp only [step] at h
    obtain ⟨q, hq, h⟩ := bind_eq_ok.1 h
    cases h
    obtain ⟨h1, h2⟩ := plain_same hp k.dynamic hq
    refine ⟨by simpa [SizedSpec.stateFn] using k.state, by simpa [SizedSpec.outputFn] using k.output,
      by simpa [SizedSpec.ineqFn] using k.ineq, by rw [h1]; simpa [SizedSpec.constraints] using k.groups,
      ?_, (plain_keeps hp k.dynamic hq).2.trans k.dynamic⟩
    rw [h2, k.objective]
    unfold SizedSpec.hasObjective
    rw [List.any_append, List.any_cons, List.any_nil, Bool.or_false]
    congr 1
    cases c <;> try rfl
    rename_i acc
    cases acc <;> rfl

theorem run_known {junk : Nat → K} {ops : List (SizedCall d K)} : ∀ {q : (NlMpc d K × SizedFns d K) × List (NlOut K)},
    run d junk ops = .ok q → Known ops q.1.1 q.1.2 := by
  induction ops using List.reverseRecOn with
  | nil =>
    intro q h
    unfold run at h
    rw [List.foldl_nil] at h
    obtain ⟨m, hm, h⟩ := bind_eq_ok.1 h
    cases h
    unfold NlMpc.init at hm
    obtain ⟨s, -, hm⟩ := bind_eq_ok.1 hm
    obtain ⟨o, ho, hm⟩ := bind_eq_ok.1 hm
    cases hm
    refine ⟨rfl, rfl, rfl, ?_, ?_, rfl⟩
    all_goals
      unfold NlOpt.init NlOpt.setParameters NlOpt.pinSlack at ho
      dsimp only at ho
      obtain ⟨a, ha, ho⟩ := bind_eq_ok.1 ho
      cases ho
      rw [if_pos rfl] at ha
      obtain ⟨_, -, ha⟩ := bind_eq_ok.1 ha
      obtain ⟨_, -, ha⟩ := bind_eq_ok.1 ha
      cases ha
      rfl
  | append_singleton ops c ih =>
    intro q h
    rw [run_snoc] at h
    obtain ⟨p, hp, h⟩ := bind_eq_ok.1 h
    obtain ⟨r, hr, h⟩ := bind_eq_ok.1 h
    cases h
    exact step_known (ih hp) hr

/-- no call of `optimize` which has to evaluate a function of the wrong length returns -/
theorem optimize_stops (hp : 0 < d.ph) (hx : 0 < d.nx) {ops : List (SizedCall d K)} {m : NlMpc d K} {F : SizedFns d K}
    (k : Known ops m F) {x0 u0 : Vec K} {cs : List (NlCallback K)} {out : NlOutcome K} {junk : Nat → K}
    (hn : SizedSpec.Needs d ops cs out) : Stops (optimize F m x0 u0 cs out junk) := by
  intro r h
  unfold optimize NlMpc.onState at h
  simp only [NlState.exec, ok_bind, pure_bind'] at h
  obtain ⟨p, -, h⟩ := bind_eq_ok.1 h
  obtain ⟨s, hs, h⟩ := bind_eq_ok.1 h
  obtain ⟨m', hm, h⟩ := bind_eq_ok.1 h
  rcases hn with ⟨f, hf, hw, i, z, g, jk, hc, hk⟩ | ⟨f, hf, hw, i, z, g, jk, hc, hk⟩ | ⟨f, hf, hw, hn⟩
  · refine callbacks_stop _ hc ?_ s hs
    intro s
    refine serve_stop s (by rw [k.groups]; exact hk) ?_
    exact conWrapper_stop_ineq s (evalIneq_wrong s (k.ineq.trans hf) hw hp hx z jk)
  · refine callbacks_stop _ hc ?_ s hs
    intro s
    refine serve_stop s (by rw [k.groups]; exact hk) ?_
    exact conWrapper_stop_dyn s fun b => evalDyn_wrong s (k.state.trans hf) hw hp z b jk
  · rcases hn with ⟨z, g, jk, hc, ho⟩ | ⟨g', hg', i, z, g, jk, hc, hk⟩ | ⟨z, v, c, rfl⟩
    · refine callbacks_stop _ hc ?_ s hs
      intro s
      exact serve_stop_obj s (k.objective.trans ho) fun b => evalObj_wrong s (k.output.trans hf) hw z b
    · refine callbacks_stop _ hc ?_ s hs
      intro s
      refine serve_stop s (by rw [k.groups]; exact hk) ?_
      exact conWrapper_stop_ineq s (evalIneq_wrong_output s (k.output.trans hf) hw (k.ineq.trans hg') z jk)
    · simp only [finish] at hm
      rw [if_neg (by simp)] at hm
      obtain ⟨f', -, hm⟩ := bind_eq_ok.1 hm
      unfold accept at hm
      obtain ⟨_, -, hm⟩ := bind_eq_ok.1 hm
      obtain ⟨_, -, hm⟩ := bind_eq_ok.1 hm
      obtain ⟨_, -, hm⟩ := bind_eq_ok.1 hm
      obtain ⟨_, -, hm⟩ := bind_eq_ok.1 hm
      obtain ⟨Y, hY, -⟩ := bind_eq_ok.1 hm
      exact getOutput_wrong (k.output.trans hf) hw _ _ Y hY

end Sized
end Mpc
