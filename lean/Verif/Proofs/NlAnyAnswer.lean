import Verif.Proofs.NlTraceEval
import Verif.Spec.NlStateful

/-
Programs run with any answers: what holds whatever the user functions answer, also if they answer differently when asked again.
-/
namespace Mpc
open Exec NlSpec
set_option linter.unusedSectionVars false

/-- Whatever the answers are, `p` succeeds with a result in `Q`, and the calls, apart from outputs computed on the way, are `l`. -/
def Any {d : Dims} {K α : Type} [Zero K] : Prog d K α → List (UserCall d K) → (α → Prop) → Prop
  | .done r, l, Q => l = [] ∧ Post r Q
  | .ask c k, l, Q => ∃ l', l = bare c :: l' ∧ ∀ a, Any (k a) l' Q

section
variable {d : Dims} {K : Type} [Zero K] {α β σ : Type}

theorem Any.mono {p : Prog d K α} : ∀ {l l' : List (UserCall d K)} {Q R : α → Prop}, Any p l Q → l = l' → (∀ a, Q a → R a) →
    Any p l' R := by
  induction p with
  | done r => rintro l l' Q R ⟨h1, h2⟩ rfl hq; exact ⟨h1, h2.mono hq⟩
  | ask c k ih =>
    rintro l l' Q R ⟨l1, h1, h2⟩ rfl hq
    exact ⟨l1, h1, fun a => ih a (h2 a) rfl hq⟩

theorem Any.bind {p : Prog d K α} {f : α → Prog d K β} {l' : List (UserCall d K)} {R : β → Prop} :
    ∀ {l : List (UserCall d K)} {Q : α → Prop}, Any p l Q → (∀ a, Q a → Any (f a) l' R) → Any (p >>= f) (l ++ l') R := by
  induction p with
  | done r =>
    rintro l Q ⟨rfl, a, rfl, h⟩ hf
    exact hf a h
  | ask c k ih =>
    rintro l Q ⟨l1, rfl, h⟩ hf
    exact ⟨l1 ++ l', rfl, fun a => ih a (h a) hf⟩

theorem Any.bindEnd {p : Prog d K α} {f : α → Prog d K β} {l : List (UserCall d K)} {Q : α → Prop} {R : β → Prop}
    (h : Any p l Q) (hf : ∀ a, Q a → Any (f a) [] R) : Any (p >>= f) l R := by
  have := Any.bind h hf
  rwa [List.append_nil] at this

theorem Any.pure {a : α} {Q : α → Prop} (h : Q a) : Any (Pure.pure a : Prog d K α) [] Q := ⟨rfl, a, rfl, h⟩

theorem Any.lift {e : Exec α} {Q : α → Prop} (h : Post e Q) : Any (liftM e : Prog d K α) [] Q := ⟨rfl, h⟩

/-- a step without calls, then the rest -/
theorem Any.first {e : Exec α} {f : α → Prog d K β} {l : List (UserCall d K)} {Q : α → Prop} {R : β → Prop} (h : Post e Q)
    (hf : ∀ a, Q a → Any (f a) l R) : Any (liftM e >>= f) l R := Any.bind (l := []) (Any.lift h) hf

/-- a call, then the rest -/
theorem Any.callThen {c : UserCall d K} {f : c.Ans → Prog d K β} {l : List (UserCall d K)} {R : β → Prop} (h : ∀ a, Any (f a) l R) :
    Any (Prog.call c >>= f) (bare c :: l) R := ⟨l, rfl, h⟩

theorem forFrom_any (n : Nat) (body : Nat → σ → Prog d K σ) (tr : Nat → List (UserCall d K)) (Inv : Nat → σ → Prop) :
    ∀ lo s, Inv lo s → (∀ i t, lo ≤ i → i < lo + n → Inv i t → Any (body i t) (tr i) (Inv (i + 1))) →
      Any (Prog.forFrom lo n s body) ((List.range' lo n).flatMap tr) (Inv (lo + n)) := by
  induction n with
  | zero => intro lo s h0 _; exact Any.pure h0
  | succ n ih =>
    intro lo s h0 hs
    rw [List.range'_succ, List.flatMap_cons]
    refine Any.bind (hs lo s (Nat.le_refl _) (by omega) h0) ?_
    intro t ht
    have := ih (lo + 1) t ht fun i t h1 h2 h3 => hs i t (by omega) (by omega) h3
    rwa [show lo + 1 + n = lo + (n + 1) by omega] at this

theorem forRange_any (n : Nat) (s : σ) (body : Nat → σ → Prog d K σ) (tr : Nat → List (UserCall d K)) (Inv : Nat → σ → Prop)
    (h0 : Inv 0 s) (hs : ∀ i t, i < n → Inv i t → Any (body i t) (tr i) (Inv (i + 1))) :
    Any (Prog.forRange n s body) ((List.range n).flatMap tr) (Inv n) := by
  have := forFrom_any n body tr Inv 0 s h0 fun i t _ h2 => hs i t (by omega)
  rwa [← List.range_eq_range', Nat.zero_add] at this

theorem outputsBy_zeroF (b : Bool) (X : Traj (d.ph + 1) d.nx K) (U : Traj (d.ph + 1) d.nu K) :
    outputsBy zeroF b X U = fun _ _ => 0 := by
  funext k i
  unfold outputsBy
  cases b <;> rfl

end

section
variable {d : Dims} {K : Type} {α β σ : Type} [Field K] [LinearOrder K] [IsStrictOrderedRing K]

theorem forward_any (call : Mat K → Prog d K K) (tr : Mat K → List (UserCall d K)) (n m off : Nat) (X J0 : Mat K) (dv f0 : K)
    (step : Nat → Nat → Exec K) (δ : Nat → Nat → K)
    (hX : n + off ≤ X.rows) (hXc : X.cols = m) (hJr : J0.rows = m) (hJc : n ≤ J0.cols)
    (hstep : ∀ i j, i < n → j < m → step i j = .ok (δ i j))
    (hcall : ∀ Y : Mat K, Y.rows = X.rows → Y.cols = X.cols → Any (call Y) (tr Y) (fun _ => True)) :
    Any (Prog.forRange n (X, J0) fun i s => Prog.forRange m s fun j s => do
      let dx := dv * (← step i j)
      let x0 ← s.1.set (i + off) j ((← s.1.at? (i + off) j) + dx)
      let v ← call x0
      let x0 ← x0.set (i + off) j ((← x0.at? (i + off) j) - dx)
      let J ← s.2.set j i ((v - f0) / dx)
      return (x0, J))
    ((List.range n).flatMap fun i => (List.range m).flatMap fun j => tr (X.bumpM (i + off) j (dv * δ i j)))
    (fun s => s.1 = X ∧ s.2.rows = m ∧ s.2.cols = J0.cols) := by
  refine forRange_any (σ := Mat K × Mat K) n _ _ _ (fun _ s => s.1 = X ∧ s.2.rows = m ∧ s.2.cols = J0.cols) ⟨rfl, hJr, rfl⟩ ?_
  intro i s hi hs
  refine forRange_any (σ := Mat K × Mat K) m _ _ _ (fun _ s => s.1 = X ∧ s.2.rows = m ∧ s.2.cols = J0.cols) hs ?_
  rintro j ⟨Y, J⟩ hj ⟨rfl, h2, h3⟩
  dsimp only at hX hXc hcall h2 h3 ⊢
  rw [hstep i j hi hj, Prog.lift_ok_bind, Mat.bump_stepP _ _ (by omega) (by omega)]
  refine Any.bindEnd (hcall _ (by rfl) (by rfl)) ?_
  intro v _
  rw [Mat.bump_step_subP _ _ (by rw [Mat.bumpM_rows]; omega) (by rw [Mat.bumpM_cols]; omega),
    Mat.set_ok (by omega) (by omega), Prog.lift_ok_bind, Mat.bumpM_add, add_neg_cancel, Mat.bumpM_zero]
  exact Any.pure ⟨rfl, h2, h3⟩

theorem forward_last_any (call : Mat K → Prog d K K) (tr : Mat K → List (UserCall d K)) (m p p' cc : Nat) (X J0 : Mat K) (dv f0 : K)
    (step : Nat → Exec K) (δ : Nat → K) (hpp : p ≠ p')
    (hp : p < X.rows) (hp' : p' < X.rows) (hXc : X.cols = m) (hJr : J0.rows = m) (hJc : cc < J0.cols)
    (hstep : ∀ j, j < m → step j = .ok (δ j))
    (hcall : ∀ Y : Mat K, Y.rows = X.rows → Y.cols = X.cols → Any (call Y) (tr Y) (fun _ => True)) :
    Any (Prog.forRange m (X, J0) fun j s => do
      let du := dv * (← step j)
      let u0 ← s.1.set p j ((← s.1.at? p j) + du)
      let u0 ← u0.set p' j ((← u0.at? p' j) + du)
      let v ← call u0
      let u0 ← u0.set p j ((← u0.at? p j) - du)
      let u0 ← u0.set p' j ((← u0.at? p' j) - du)
      let J ← s.2.set j cc ((v - f0) / du)
      return (u0, J))
    ((List.range m).flatMap fun j => tr (X.bump2 p p' j (dv * δ j)))
    (fun s => s.1 = X ∧ s.2.rows = m ∧ s.2.cols = J0.cols) := by
  refine forRange_any (σ := Mat K × Mat K) m _ _ _ (fun _ s => s.1 = X ∧ s.2.rows = m ∧ s.2.cols = J0.cols) ⟨rfl, hJr, rfl⟩ ?_
  rintro j ⟨Y, J⟩ hj ⟨rfl, h2, h3⟩
  dsimp only at hp hp' hXc hcall h2 h3 ⊢
  have hjc : j < Y.cols := by omega
  rw [hstep j hj, Prog.lift_ok_bind, Mat.bump_stepP _ _ hp hjc, Mat.bump_stepP _ _ (by exact hp') (by exact hjc)]
  refine Any.bindEnd (hcall _ (by rfl) (by rfl)) ?_
  intro v _
  rw [Mat.bump_step_subP _ _ (by exact hp) (by exact hjc), Mat.bump_step_subP _ _ (by exact hp') (by exact hjc)]
  have e2 : ((((Y.bumpM p j (dv * δ j)).bumpM p' j (dv * δ j)).bumpM p j (-(dv * δ j))).bumpM p' j (-(dv * δ j))) = Y := by
    change (Y.bump2 p p' j (dv * δ j)).bump2 p p' j (-(dv * δ j)) = _
    rw [Mat.bump2_bump2 _ hpp, add_neg_cancel, Mat.bump2_zero]
  rw [e2, Mat.set_ok (by omega) (by omega), Prog.lift_ok_bind]
  exact Any.pure ⟨rfl, h2, h3⟩

theorem central_any (call : Mat K → Prog d K (Vec K)) (tr : Mat K → List (UserCall d K)) (q n m off : Nat) (X J0 : Mat K)
    (step : Nat → Nat → Exec K) (δ : Nat → Nat → K)
    (hX : n + off ≤ X.rows) (hXc : X.cols = m) (hJr : J0.rows = q) (hJc : n * m ≤ J0.cols)
    (hstep : ∀ i j, i < n → j < m → step i j = .ok (δ i j))
    (hcall : ∀ Y : Mat K, Y.rows = X.rows → Y.cols = X.cols → Any (call Y) (tr Y) (fun v => v.size = q)) :
    Any (Prog.forRange n (X, J0) fun i s => Prog.forRange m s fun j s => do
      let dx := Constraints.dv * (← step i j)
      let x0 ← s.1.set (i + off) j ((← s.1.at? (i + off) j) + dx)
      let fp ← call x0
      let x0 ← x0.set (i + off) j ((← x0.at? (i + off) j) - 2 * dx)
      let fm ← call x0
      let x0 ← x0.set (i + off) j ((← x0.at? (i + off) j) + dx)
      let df ← fp.subDiv fm (2 * dx)
      let J ← s.2.setColIn (i * m) m j df
      return (x0, J))
    ((List.range n).flatMap fun i => (List.range m).flatMap fun j =>
      tr (X.bumpM (i + off) j (Constraints.dv * δ i j)) ++ tr (X.bumpM (i + off) j (-(Constraints.dv * δ i j))))
    (fun s => s.1 = X ∧ s.2.rows = q ∧ s.2.cols = J0.cols) := by
  refine forRange_any (σ := Mat K × Mat K) n _ _ _ (fun _ s => s.1 = X ∧ s.2.rows = q ∧ s.2.cols = J0.cols) ⟨rfl, hJr, rfl⟩ ?_
  intro i s hi hs
  refine forRange_any (σ := Mat K × Mat K) m _ _ _ (fun _ s => s.1 = X ∧ s.2.rows = q ∧ s.2.cols = J0.cols) hs ?_
  rintro j ⟨Y, J⟩ hj ⟨rfl, h2, h3⟩
  dsimp only at hX hXc hcall h2 h3 ⊢
  have hend : i * m + m ≤ n * m := block_end_le hi
  rw [hstep i j hi hj, Prog.lift_ok_bind, Mat.bump_stepP _ _ (by omega) (by omega)]
  refine Any.bind (hcall _ (by rfl) (by rfl)) ?_
  intro fp hfp
  rw [Mat.bump_step_subP _ _ (by rw [Mat.bumpM_rows]; omega) (by rw [Mat.bumpM_cols]; omega), Mat.bumpM_add,
    show Constraints.dv * δ i j + -(2 * (Constraints.dv * δ i j)) = -(Constraints.dv * δ i j) by ring]
  refine Any.bindEnd (hcall _ (by rfl) (by rfl)) ?_
  intro fm hfm
  rw [Mat.bump_stepP _ _ (by rw [Mat.bumpM_rows]; omega) (by rw [Mat.bumpM_cols]; omega), Mat.bumpM_add, neg_add_cancel, Mat.bumpM_zero]
  unfold Vec.subDiv
  rw [require_ok (by rw [hfp, hfm]), ok_bind, Prog.lift_pure_bind]
  unfold Mat.setColIn
  rw [require_ok ⟨by omega, hj⟩, ok_bind, Mat.setCol_ok (by omega) (by dsimp only; rw [hfp, h2]), Prog.lift_ok_bind]
  exact Any.pure ⟨rfl, h2, h3⟩

theorem central_last_any (call : Mat K → Prog d K (Vec K)) (tr : Mat K → List (UserCall d K)) (q m p p' c0 : Nat) (X J0 : Mat K)
    (step : Nat → Exec K) (δ : Nat → K) (hpp : p ≠ p')
    (hp : p < X.rows) (hp' : p' < X.rows) (hXc : X.cols = m) (hJr : J0.rows = q) (hJc : c0 + m ≤ J0.cols)
    (hstep : ∀ j, j < m → step j = .ok (δ j))
    (hcall : ∀ Y : Mat K, Y.rows = X.rows → Y.cols = X.cols → Any (call Y) (tr Y) (fun v => v.size = q)) :
    Any (Prog.forRange m (X, J0) fun j s => do
      let du := Constraints.dv * (← step j)
      let u0 ← s.1.set p j ((← s.1.at? p j) + du)
      let u0 ← u0.set p' j ((← u0.at? p' j) + du)
      let fp ← call u0
      let u0 ← u0.set p j ((← u0.at? p j) - 2 * du)
      let u0 ← u0.set p' j ((← u0.at? p' j) - 2 * du)
      let fm ← call u0
      let u0 ← u0.set p j ((← u0.at? p j) + du)
      let u0 ← u0.set p' j ((← u0.at? p' j) + du)
      let df ← fp.subDiv fm (2 * du)
      let J ← s.2.setColIn c0 m j df
      return (u0, J))
    ((List.range m).flatMap fun j => tr (X.bump2 p p' j (Constraints.dv * δ j)) ++ tr (X.bump2 p p' j (-(Constraints.dv * δ j))))
    (fun s => s.1 = X ∧ s.2.rows = q ∧ s.2.cols = J0.cols) := by
  refine forRange_any (σ := Mat K × Mat K) m _ _ _ (fun _ s => s.1 = X ∧ s.2.rows = q ∧ s.2.cols = J0.cols) ⟨rfl, hJr, rfl⟩ ?_
  rintro j ⟨Y, J⟩ hj ⟨rfl, h2, h3⟩
  dsimp only at hp hp' hXc hcall h2 h3 ⊢
  have hjc : j < Y.cols := by omega
  rw [hstep j hj, Prog.lift_ok_bind, Mat.bump_stepP _ _ hp hjc, Mat.bump_stepP _ _ (by exact hp') (by exact hjc)]
  refine Any.bind (hcall _ (by rfl) (by rfl)) ?_
  intro fp hfp
  rw [Mat.bump_step_subP _ _ (by exact hp) (by exact hjc), Mat.bump_step_subP _ _ (by exact hp') (by exact hjc)]
  have e1 : (((Y.bumpM p j (Constraints.dv * δ j)).bumpM p' j (Constraints.dv * δ j)).bumpM p j (-(2 * (Constraints.dv * δ j)))).bumpM p' j
      (-(2 * (Constraints.dv * δ j))) = Y.bump2 p p' j (-(Constraints.dv * δ j)) := by
    change (Y.bump2 p p' j (Constraints.dv * δ j)).bump2 p p' j (-(2 * (Constraints.dv * δ j))) = _
    rw [Mat.bump2_bump2 _ hpp]; congr 1; ring
  rw [e1]
  refine Any.bindEnd (hcall _ (by rfl) (by rfl)) ?_
  intro fm hfm
  rw [Mat.bump_stepP _ _ (by exact hp) (by exact hjc), Mat.bump_stepP _ _ (by exact hp') (by exact hjc)]
  have e2 : ((Y.bump2 p p' j (-(Constraints.dv * δ j))).bumpM p j (Constraints.dv * δ j)).bumpM p' j (Constraints.dv * δ j) = Y := by
    change (Y.bump2 p p' j (-(Constraints.dv * δ j))).bump2 p p' j (Constraints.dv * δ j) = _
    rw [Mat.bump2_bump2 _ hpp, neg_add_cancel, Mat.bump2_zero]
  rw [e2]
  unfold Vec.subDiv
  rw [require_ok (by rw [hfp, hfm]), ok_bind, Prog.lift_pure_bind]
  unfold Mat.setColIn
  rw [require_ok ⟨by omega, hj⟩, ok_bind, Mat.setCol_ok (by omega) (by dsimp only; rw [hfp, h2]), Prog.lift_ok_bind]
  exact Any.pure ⟨rfl, h2, h3⟩

end

/-! ### the functions of the project -/

section
variable {d : Dims} {K : Type}

theorem NlModel.getOutputP_any [Zero K] (M : NlModel d K) (X U : Mat K) (hp : d.ph < 2 ^ 31)
    (hX : X.Is (d.ph + 1) d.nx) (hU : U.Is (d.ph + 1) d.nu) :
    Any (M.getOutputP X U) (NlSpec.outCalls M.outUser.isSome (X.viewF (d.ph + 1) d.nx) (U.viewF (d.ph + 1) d.nu))
      (fun Y => Y.Is (d.ph + 1) d.ny) := by
  obtain ⟨hX1, hX2⟩ := hX
  obtain ⟨hU1, hU2⟩ := hU
  unfold NlModel.getOutputP NlSpec.outCalls
  cases M.outUser with
  | none => exact Any.pure ⟨rfl, rfl⟩
  | some g =>
    dsimp only [Option.isSome]
    rw [if_pos rfl]
    refine (forRange_any (d.ph + 1) (Mat.const (d.ph + 1) d.ny (0 : K)) _
      (fun i => if h : i < d.ph + 1 then [UserCall.out (X.viewF (d.ph + 1) d.nx ⟨i, h⟩) (U.viewF (d.ph + 1) d.nu ⟨i, h⟩) i] else [])
      (fun i Y => Y.Is (d.ph + 1) d.ny) ⟨rfl, rfl⟩
      (by
        rintro i Y hi ⟨h1, h2⟩
        rw [dif_pos hi, Mat.row_ok (by omega), Prog.lift_ok_bind, Vec.view_ok (by exact hX2), Prog.lift_ok_bind, Mat.row_ok (by omega),
          Prog.lift_ok_bind, Vec.view_ok (by exact hU2), Prog.lift_ok_bind, toUnsigned_of_lt (by omega)]
        refine Any.callThen (c := .out _ _ _) fun y => ?_
        refine Any.lift ?_
        rw [Mat.setRow_ok (by omega) (by exact h2.symm)]
        exact post_ok ⟨h1, h2⟩)).mono ?_ (fun _ h => h)
    refine (flatMap_range_to (g := fun (k : Fin (d.ph + 1)) => [UserCall.out (X.viewF (d.ph + 1) d.nx k) (U.viewF (d.ph + 1) d.nu k) k])
      fun k => by rw [dif_pos k.2]).trans ?_
    generalize List.finRange (d.ph + 1) = l
    induction l with
    | nil => rfl
    | cons a l ih => rw [List.flatMap_cons, ih]; rfl

theorem NlModel.callStateP_any [Zero K] (M : NlModel d K) (hf : M.vectorField.isSome) (x u : Vec K) (p : Nat) (hx : x.size = d.nx)
    (hu : u.size = d.nu) : Any (M.callStateP x u p) [.state (x.viewF d.nx) (u.viewF d.nu) p] (fun v => v.size = d.nx) := by
  unfold NlModel.callStateP
  cases h : M.vectorField with
  | none => rw [h] at hf; cases hf
  | some f =>
    dsimp only
    rw [Vec.view_ok hx, Prog.lift_ok_bind, Vec.view_ok hu, Prog.lift_ok_bind]
    exact Any.callThen (c := .state _ _ _) fun _ => Any.pure rfl

variable [Field K] [LinearOrder K] [IsStrictOrderedRing K] {M : NlModel d K}

theorem Objective.callObjP_any (f : ObjFn d K) (M : NlModel d K) (X U : Mat K) (e : K) (hp : d.ph < 2 ^ 31)
    (hX : X.Is (d.ph + 1) d.nx) (hU : U.Is (d.ph + 1) d.nu) :
    Any (Objective.callObjP (some f) M X U e)
      (NlSpec.objCalls zeroF M.outUser.isSome (X.viewF (d.ph + 1) d.nx) (U.viewF (d.ph + 1) d.nu) e) (fun _ => True) := by
  unfold Objective.callObjP NlSpec.objCalls
  refine Any.bind (M.getOutputP_any X U hp hX hU) ?_
  rintro Y hY
  dsimp only
  rw [Mat.view_ok hX.1 hX.2, Prog.lift_ok_bind, Mat.view_ok hY.1 hY.2, Prog.lift_ok_bind, Mat.view_ok hU.1 hU.2, Prog.lift_ok_bind,
    outputsBy_zeroF]
  exact Any.callThen (c := .obj _ _ _ _) fun _ => Any.pure trivial

theorem Constraints.callIneqP_any (M : NlModel d K) (X U : Mat K) (e : K) (hp : d.ph < 2 ^ 31)
    (hX : X.Is (d.ph + 1) d.nx) (hU : U.Is (d.ph + 1) d.nu) :
    Any (Constraints.callIneqP M X U e)
      (NlSpec.ineqCalls zeroF M.outUser.isSome (X.viewF (d.ph + 1) d.nx) (U.viewF (d.ph + 1) d.nu) e) (fun v => v.size = d.ineq) := by
  unfold Constraints.callIneqP NlSpec.ineqCalls
  refine Any.bind (M.getOutputP_any X U hp hX hU) ?_
  rintro Y hY
  rw [Mat.view_ok hX.1 hX.2, Prog.lift_ok_bind, Mat.view_ok hY.1 hY.2, Prog.lift_ok_bind, Mat.view_ok hU.1 hU.2, Prog.lift_ok_bind,
    outputsBy_zeroF]
  exact Any.callThen (c := .ineq _ _ _ _) fun _ => Any.pure rfl

theorem Constraints.callEqP_any (X U : Mat K) (hX : X.Is (d.ph + 1) d.nx) (hU : U.Is (d.ph + 1) d.nu) :
    Any (Constraints.callEqP (d := d) X U) [.eq (X.viewF (d.ph + 1) d.nx) (U.viewF (d.ph + 1) d.nu)] (fun v => v.size = d.eq) := by
  unfold Constraints.callEqP
  rw [Mat.view_ok hX.1 hX.2, Prog.lift_ok_bind, Mat.view_ok hU.1 hU.2, Prog.lift_ok_bind]
  exact Any.callThen (c := .eq _ _) fun _ => Any.pure rfl

/-! #### Jacobians -/

theorem Objective.computeJacobianP_any (f : ObjFn d K) (M : NlModel d K) (X U : Mat K) (f0 e : K) (hp : d.ph < 2 ^ 31)
    (hp0 : 0 < d.ph) (hX : X.Is (d.ph + 1) d.nx) (hU : U.Is (d.ph + 1) d.nu) :
    Any (computeJacobianP (some f) M X U f0 e)
      ((NlSpec.overStates (X.viewF (d.ph + 1) d.nx) (fun _ a => [NlSpec.stepOf (1 / 1000000) (NlSpec.linear (X.viewF (d.ph + 1) d.nx) a)])
        (fun X => NlSpec.objCalls zeroF M.outUser.isSome X (U.viewF (d.ph + 1) d.nu) e) ++
      NlSpec.overInputs (d.ph - 1) (U.viewF (d.ph + 1) d.nu) (fun b => [NlSpec.stepOf (1 / 1000000) (NlSpec.linear (U.viewF (d.ph + 1) d.nu) b)])
        (fun U => NlSpec.objCalls zeroF M.outUser.isSome (X.viewF (d.ph + 1) d.nx) U e) ++
      NlSpec.overLastInputs (U.viewF (d.ph + 1) d.nu) (fun b => [NlSpec.stepOf (1 / 1000000) (NlSpec.linear (U.viewF (d.ph + 1) d.nu) b)])
        (fun U => NlSpec.objCalls zeroF M.outUser.isSome (X.viewF (d.ph + 1) d.nx) U e) ++
      (NlSpec.bothSides (max (1 / 1000000) |e| * (1 / 1000000))).flatMap (fun t =>
        NlSpec.objCalls zeroF M.outUser.isSome (X.viewF (d.ph + 1) d.nx) (U.viewF (d.ph + 1) d.nu) (e + t))))
      (fun r => r.1.Is d.nx d.ph ∧ r.2.1.Is d.nu d.ph) := by
  unfold computeJacobianP
  dsimp only
  rw [List.append_assoc, List.append_assoc]
  refine Any.bind ((forward_any (fun Y => callObjP (some f) M Y U e)
    (fun Y => NlSpec.objCalls zeroF M.outUser.isSome (Y.viewF (d.ph + 1) d.nx) (U.viewF (d.ph + 1) d.nu) e)
    d.ph d.nx 1 X (Mat.const d.nx d.ph 0) (1 / 1000000) _ (fun _ j => X.absMax1.dataVec.at? j)
    (fun _ j => X.absMax1.dataVec.get j) (by rw [hX.1]) hX.2 rfl (by exact Nat.le_refl _)
    (fun i j _ hj => Mat.absMax1_data_ok hX.1 hX.2 hj)
    (fun Y h1 h2 => callObjP_any f M Y U e hp ⟨h1.trans hX.1, h2.trans hX.2⟩ hU)).mono ?_ (fun _ h => h)) ?_
  · refine flatMap_range_eq fun k hk => flatMap_range_eq fun a ha => ?_
    rw [Mat.viewF_bumpM, Mat.step_data_eq _ hX.1 ha]
    exact (List.append_nil _).symm
  rintro ⟨X', Jx⟩ ⟨hX', hJr, hJc⟩
  dsimp only at hX' hJr hJc ⊢
  subst hX'
  refine Any.bind ((forward_any (fun Y => callObjP (some f) M X' Y e)
    (fun Y => NlSpec.objCalls zeroF M.outUser.isSome (X'.viewF (d.ph + 1) d.nx) (Y.viewF (d.ph + 1) d.nu) e)
    (d.ph - 1) d.nu 0 U (Mat.const d.nu d.ph 0) (1 / 1000000) _ (fun _ j => U.absMax1.dataVec.at? j)
    (fun _ j => U.absMax1.dataVec.get j) (by rw [hU.1]; omega) hU.2 rfl (by simp [Mat.const])
    (fun i j _ hj => Mat.absMax1_data_ok hU.1 hU.2 hj)
    (fun Y h1 h2 => callObjP_any f M X' Y e hp hX ⟨h1.trans hU.1, h2.trans hU.2⟩)).mono ?_ (fun _ h => h)) ?_
  · refine flatMap_range_eq fun k hk => flatMap_range_eq fun b hb => ?_
    rw [Mat.viewF_bumpM, Mat.step_data_eq _ hU.1 hb]
    exact (List.append_nil _).symm
  rintro ⟨U', Jm⟩ ⟨hU', hMr, hMc⟩
  dsimp only at hU' hMr hMc ⊢
  subst hU'
  refine Any.bind ((forward_last_any (fun Y => callObjP (some f) M X' Y e)
    (fun Y => NlSpec.objCalls zeroF M.outUser.isSome (X'.viewF (d.ph + 1) d.nx) (Y.viewF (d.ph + 1) d.nu) e)
    d.nu (d.ph - 1) d.ph (d.ph - 1) U' Jm (1 / 1000000) _ (fun j => U'.absMax1.dataVec.at? j)
    (fun j => U'.absMax1.dataVec.get j) (by omega) (by rw [hU.1]; omega) (by rw [hU.1]; omega) hU.2 hMr
    (by rw [hMc]; simp [Mat.const]; omega)
    (fun j hj => Mat.absMax1_data_ok hU.1 hU.2 hj)
    (fun Y h1 h2 => callObjP_any f M X' Y e hp hX ⟨h1.trans hU.1, h2.trans hU.2⟩)).mono ?_ (fun _ h => h)) ?_
  · refine flatMap_range_eq fun b hb => ?_
    rw [Mat.viewF_bump2, Mat.step_data_eq _ hU.1 hb]
    exact (List.append_nil _).symm
  rintro ⟨U'', Jm'⟩ ⟨hU'', hNr, hNc⟩
  dsimp only at hU'' hNr hNc ⊢
  subst hU''
  refine Any.bind (callObjP_any f M X' U'' _ hp hX hU) fun f1 _ => ?_
  rw [sub_eq_add_neg]
  refine Any.bindEnd ((callObjP_any f M X' U'' _ hp hX hU).mono (List.append_nil _).symm fun _ h => h) fun f2 _ => ?_
  exact Any.pure ⟨⟨hJr, hJc⟩, hNr, hNc.trans hMc⟩

theorem Constraints.computeIneqJacobianP_any (M : NlModel d K) (X U : Mat K) (e : K) (hp : d.ph < 2 ^ 31)
    (hX : X.Is (d.ph + 1) d.nx) (hU : U.Is (d.ph + 1) d.nu) :
    Any (computeIneqJacobianP M X U e)
      (NlSpec.overStates (X.viewF (d.ph + 1) d.nx)
        (fun _ a => NlSpec.bothSides (NlSpec.stepOf (1 / 67108864) (NlSpec.linear (X.viewF (d.ph + 1) d.nx) a)))
        (fun X => NlSpec.ineqCalls zeroF M.outUser.isSome X (U.viewF (d.ph + 1) d.nu) e) ++
      NlSpec.overInputs d.ph (U.viewF (d.ph + 1) d.nu)
        (fun b => NlSpec.bothSides (NlSpec.stepOf (1 / 67108864) (NlSpec.linear (U.viewF (d.ph + 1) d.nu) b)))
        (fun U => NlSpec.ineqCalls zeroF M.outUser.isSome (X.viewF (d.ph + 1) d.nx) U e) ++
      (NlSpec.bothSides (max (1 / 67108864) |e| * (1 / 67108864))).flatMap (fun t =>
        NlSpec.ineqCalls zeroF M.outUser.isSome (X.viewF (d.ph + 1) d.nx) (U.viewF (d.ph + 1) d.nu) (e + t)))
      (fun r => r.1.Is d.ineq (d.ph * d.nx) ∧ r.2.1.Is d.ineq (d.ph * d.nu) ∧ r.2.2.size = d.ineq) := by
  unfold computeIneqJacobianP
  dsimp only
  rw [List.append_assoc]
  refine Any.bind ((central_any (fun Y => callIneqP M Y U e)
    (fun Y => NlSpec.ineqCalls zeroF M.outUser.isSome (Y.viewF (d.ph + 1) d.nx) (U.viewF (d.ph + 1) d.nu) e)
    d.ineq d.ph d.nx 1 X (Mat.const d.ineq (d.ph * d.nx) 0) (fun _ j => X.absMax1.dataVec.at? j)
    (fun _ j => X.absMax1.dataVec.get j) (by rw [hX.1]) hX.2 rfl (by exact Nat.le_refl _)
    (fun i j _ hj => Mat.absMax1_data_ok hX.1 hX.2 hj)
    (fun Y h1 h2 => callIneqP_any M Y U e hp ⟨h1.trans hX.1, h2.trans hX.2⟩ hU)).mono ?_ (fun _ h => h)) ?_
  · refine flatMap_range_eq fun k hk => flatMap_range_eq fun a ha => ?_
    rw [Mat.viewF_bumpM, Mat.viewF_bumpM, Mat.step_data_eq _ hX.1 ha]
    simp only [NlSpec.bothSides, List.flatMap_cons, List.flatMap_nil, List.append_nil]
    rfl
  rintro ⟨X', Jx⟩ ⟨hX', hJr, hJc⟩
  dsimp only at hX' hJr hJc ⊢
  subst hX'
  refine Any.bind ((central_any (fun Y => callIneqP M X' Y e)
    (fun Y => NlSpec.ineqCalls zeroF M.outUser.isSome (X'.viewF (d.ph + 1) d.nx) (Y.viewF (d.ph + 1) d.nu) e)
    d.ineq d.ph d.nu 0 U (Mat.const d.ineq (d.ph * d.nu) 0) (fun _ j => U.absMax1.dataVec.at? j)
    (fun _ j => U.absMax1.dataVec.get j) (by rw [hU.1]; omega) hU.2 rfl (by exact Nat.le_refl _)
    (fun i j _ hj => Mat.absMax1_data_ok hU.1 hU.2 hj)
    (fun Y h1 h2 => callIneqP_any M X' Y e hp hX ⟨h1.trans hU.1, h2.trans hU.2⟩)).mono ?_ (fun _ h => h)) ?_
  · refine flatMap_range_eq fun k hk => flatMap_range_eq fun b hb => ?_
    rw [Mat.viewF_bumpM, Mat.viewF_bumpM, Mat.step_data_eq _ hU.1 hb]
    simp only [NlSpec.bothSides, List.flatMap_cons, List.flatMap_nil, List.append_nil]
    rfl
  rintro ⟨U', Jm⟩ ⟨hU', hMr, hMc⟩
  dsimp only at hU' hMr hMc ⊢
  subst hU'
  refine Any.bind (callIneqP_any M X' U' _ hp hX hU) fun f1 h1 => ?_
  rw [sub_eq_add_neg]
  refine Any.bindEnd ((callIneqP_any M X' U' _ hp hX hU).mono (List.append_nil _).symm fun _ h => h) fun f2 h2 => ?_
  unfold Vec.subDiv
  rw [require_ok (by rw [h1, h2]), ok_bind, Prog.lift_pure_bind]
  exact Any.pure ⟨⟨hJr, hJc⟩, ⟨hMr, hMc⟩, h1⟩

theorem Constraints.computeEqJacobianP_any (X U : Mat K) (hp0 : 0 < d.ph) (hX : X.Is (d.ph + 1) d.nx) (hU : U.Is (d.ph + 1) d.nu) :
    Any (computeEqJacobianP (d := d) X U)
      (NlSpec.overStates (X.viewF (d.ph + 1) d.nx)
        (fun k a => NlSpec.bothSides (NlSpec.stepOf (1 / 67108864) (NlSpec.entry (X.viewF (d.ph + 1) d.nx) (k + 1) a)))
        (fun X => [.eq X (U.viewF (d.ph + 1) d.nu)]) ++
      NlSpec.overInputs (d.ph - 1) (U.viewF (d.ph + 1) d.nu)
        (fun b => NlSpec.bothSides (NlSpec.stepOf (1 / 67108864) (NlSpec.entry (U.viewF (d.ph + 1) d.nu) (d.ph - 1) b)))
        (fun U => [.eq (X.viewF (d.ph + 1) d.nx) U]) ++
      NlSpec.overLastInputs (U.viewF (d.ph + 1) d.nu)
        (fun b => NlSpec.bothSides (NlSpec.stepOf (1 / 67108864) (NlSpec.entry (U.viewF (d.ph + 1) d.nu) (d.ph - 1) b)))
        (fun U => [.eq (X.viewF (d.ph + 1) d.nx) U]))
      (fun r => r.1.Is d.eq (d.ph * d.nx) ∧ r.2.Is d.eq (d.ph * d.nu)) := by
  unfold computeEqJacobianP
  dsimp only
  rw [List.append_assoc]
  have hXa : ∀ i j, i < d.ph → j < d.nx → X.absMax1.at? (i + 1) j = .ok (X.absMax1.get (i + 1) j) := fun i j hi hj =>
    Mat.at_ok (by simp only [Mat.absMax1]; rw [hX.1]; omega) (by simp only [Mat.absMax1]; rw [hX.2]; exact hj)
  have hUa : ∀ j, j < d.nu → U.absMax1.at? (d.ph - 1) j = .ok (U.absMax1.get (d.ph - 1) j) := fun j hj =>
    Mat.at_ok (by simp only [Mat.absMax1]; rw [hU.1]; omega) (by simp only [Mat.absMax1]; rw [hU.2]; exact hj)
  refine Any.bind ((central_any (fun Y => callEqP (d := d) Y U)
    (fun Y => [.eq (Y.viewF (d.ph + 1) d.nx) (U.viewF (d.ph + 1) d.nu)])
    d.eq d.ph d.nx 1 X (Mat.const d.eq (d.ph * d.nx) 0) (fun i j => X.absMax1.at? (i + 1) j)
    (fun i j => X.absMax1.get (i + 1) j) (by rw [hX.1]) hX.2 rfl (by exact Nat.le_refl _) hXa
    (fun Y h1 h2 => callEqP_any Y U ⟨h1.trans hX.1, h2.trans hX.2⟩ hU)).mono ?_ (fun _ h => h)) ?_
  · refine flatMap_range_eq fun k hk => flatMap_range_eq fun a ha => ?_
    rw [Mat.viewF_bumpM, Mat.viewF_bumpM, Mat.step_eq _ X (r := d.ph + 1) (c := d.nx) (by omega) ha]
    rfl
  rintro ⟨X', Jx⟩ ⟨hX', hJr, hJc⟩
  dsimp only at hX' hJr hJc ⊢
  subst hX'
  refine Any.bind ((central_any (fun Y => callEqP (d := d) X' Y)
    (fun Y => [.eq (X'.viewF (d.ph + 1) d.nx) (Y.viewF (d.ph + 1) d.nu)])
    d.eq (d.ph - 1) d.nu 0 U (Mat.const d.eq (d.ph * d.nu) 0) (fun _ j => U.absMax1.at? (d.ph - 1) j)
    (fun _ j => U.absMax1.get (d.ph - 1) j) (by rw [hU.1]; omega) hU.2 rfl
    (by simp only [Mat.const]; exact Nat.mul_le_mul_right _ (by omega)) (fun _ j _ hj => hUa j hj)
    (fun Y h1 h2 => callEqP_any X' Y hX ⟨h1.trans hU.1, h2.trans hU.2⟩)).mono ?_ (fun _ h => h)) ?_
  · refine flatMap_range_eq fun k hk => flatMap_range_eq fun b hb => ?_
    rw [Mat.viewF_bumpM, Mat.viewF_bumpM, Mat.step_eq _ U (r := d.ph + 1) (c := d.nu) (by omega) hb]
    rfl
  rintro ⟨U', Jm⟩ ⟨hU', hMr, hMc⟩
  dsimp only at hU' hMr hMc ⊢
  subst hU'
  refine Any.bindEnd ((central_last_any (fun Y => callEqP (d := d) X' Y)
    (fun Y => [.eq (X'.viewF (d.ph + 1) d.nx) (Y.viewF (d.ph + 1) d.nu)])
    d.eq d.nu (d.ph - 1) d.ph ((d.ph - 1) * d.nu) U' Jm (fun j => U'.absMax1.at? (d.ph - 1) j)
    (fun j => U'.absMax1.get (d.ph - 1) j) (by omega) (by rw [hU.1]; omega) (by rw [hU.1]; omega) hU.2 hMr
    (by rw [hMc]; simp only [Mat.const]; exact block_end_le (by omega)) hUa
    (fun Y h1 h2 => callEqP_any X' Y hX ⟨h1.trans hU.1, h2.trans hU.2⟩)).mono ?_ (fun _ h => h)) ?_
  · refine flatMap_range_eq fun b hb => ?_
    rw [Mat.viewF_bump2, Mat.viewF_bump2, Mat.step_eq _ U' (r := d.ph + 1) (c := d.nu) (by omega) hb]
    rfl
  rintro ⟨U'', Jm'⟩ ⟨-, hNr, hNc⟩
  exact Any.pure ⟨⟨hJr, hJc⟩, hNr, hNc.trans hMc⟩

theorem Constraints.computeStateEqJacobianP_any (M : NlModel d K) (hf : M.vectorField.isSome) (x u : Vec K) (p : Nat)
    (hx : x.size = d.nx) (hu : u.size = d.nu) :
    Any (computeStateEqJacobianP M x u p) (NlSpec.modelProbes (x.viewF d.nx) (u.viewF d.nu) p)
      (fun r => r.1.Is d.nx d.nx ∧ r.2.Is d.nx d.nu) := by
  unfold computeStateEqJacobianP NlSpec.modelProbes
  dsimp only
  refine Any.bind ((forRange_any d.nx _ _ (fun i => [UserCall.state (NlSpec.bumpV (x.viewF d.nx) i (dv * x.absMax1.get i)) (u.viewF d.nu) p,
      UserCall.state (NlSpec.bumpV (x.viewF d.nx) i (-(dv * x.absMax1.get i))) (u.viewF d.nu) p]) (fun _ (J : Mat K) => J.Is d.nx d.nx)
      ⟨rfl, rfl⟩ ?_).mono (l' := (List.finRange d.nx).flatMap (fun (a : Fin d.nx) =>
        (NlSpec.bothSides (NlSpec.stepOf (1 / 67108864) (x.viewF d.nx a))).map fun t => UserCall.state (NlSpec.bumpV (x.viewF d.nx) a t) (u.viewF d.nu) p))
      ?_ (fun _ h => h)) ?_
  · rintro i J hi ⟨j1, j2⟩
    rw [Vec.at_ok (by simp only [Vec.absMax1]; omega), Prog.lift_ok_bind, Vec.at_ok (by omega), Prog.lift_ok_bind, Vec.set_ok (by omega),
      Prog.lift_ok_bind, Prog.lift_ok_bind, sub_eq_add_neg, Vec.set_ok (by omega), Prog.lift_ok_bind]
    refine Any.bind ((M.callStateP_any hf _ u p (by exact hx) hu).mono (l' := [_]) (by rw [Vec.viewF_setRaw_add]) fun _ h => h) ?_
    intro fp hfp
    refine Any.bindEnd ((M.callStateP_any hf _ u p (by exact hx) hu).mono (l' := [_]) (by rw [Vec.viewF_setRaw_add]) fun _ h => h) ?_
    intro fm hfm
    unfold Vec.subDiv
    rw [require_ok (by rw [hfp, hfm]), ok_bind, Prog.lift_pure_bind, Mat.setCol_ok (by omega) (by dsimp only; omega)]
    exact Any.lift (post_ok ⟨j1, j2⟩)
  · exact flatMap_range_to fun k => rfl
  · rintro Jx hJx
    refine Any.bindEnd ((forRange_any d.nu _ _ (fun i => [UserCall.state (x.viewF d.nx) (NlSpec.bumpV (u.viewF d.nu) i (dv * u.absMax1.get i)) p,
      UserCall.state (x.viewF d.nx) (NlSpec.bumpV (u.viewF d.nu) i (-(dv * u.absMax1.get i))) p]) (fun _ (J : Mat K) => J.Is d.nx d.nu)
      ⟨rfl, rfl⟩ ?_).mono (l' := (List.finRange d.nu).flatMap (fun (a : Fin d.nu) =>
        (NlSpec.bothSides (NlSpec.stepOf (1 / 67108864) (u.viewF d.nu a))).map fun t => UserCall.state (x.viewF d.nx) (NlSpec.bumpV (u.viewF d.nu) a t) p))
      ?_ (fun _ h => h)) ?_
    · rintro i J hi ⟨j1, j2⟩
      rw [Vec.at_ok (by simp only [Vec.absMax1]; omega), Prog.lift_ok_bind, Vec.at_ok (by omega), Prog.lift_ok_bind, Vec.set_ok (by omega),
        Prog.lift_ok_bind, Prog.lift_ok_bind, sub_eq_add_neg, Vec.set_ok (by omega), Prog.lift_ok_bind]
      refine Any.bind ((M.callStateP_any hf x _ p hx (by exact hu)).mono (l' := [_]) (by rw [Vec.viewF_setRaw_add]) fun _ h => h) ?_
      intro fp hfp
      refine Any.bindEnd ((M.callStateP_any hf x _ p hx (by exact hu)).mono (l' := [_]) (by rw [Vec.viewF_setRaw_add]) fun _ h => h) ?_
      intro fm hfm
      unfold Vec.subDiv
      rw [require_ok (by rw [hfp, hfm]), ok_bind, Prog.lift_pure_bind, Mat.setCol_ok (by omega) (by dsimp only; omega)]
      exact Any.lift (post_ok ⟨j1, j2⟩)
    · exact flatMap_range_to fun k => rfl
    · rintro Jm hJm
      exact Any.pure ⟨hJx, hJm⟩

end
end Mpc
