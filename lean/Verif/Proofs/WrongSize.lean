import Verif.Spec.WrongSize
import Verif.Proofs.LinHist

/-
What can be learned about the sizes of the arguments from the fact that a call returned.
-/
namespace Mpc
open Exec
set_option linter.unusedSectionVars false

theorem Mat.setBlock_sizes {α : Type} {m src r : Mat α} {r0 c0 h w : Nat} (e : m.setBlock r0 c0 h w src = .ok r) :
    src.rows = h ∧ src.cols = w := by
  unfold Mat.setBlock at e
  obtain ⟨_, _, e⟩ := bind_eq_ok.1 e
  obtain ⟨_, e2, _⟩ := bind_eq_ok.1 e
  exact require_eq_ok.1 e2

theorem Mat.setCol_sizes {α : Type} {m r : Mat α} {j : Nat} {v : Vec α} (e : m.setCol j v = .ok r) : v.size = m.rows := by
  unfold Mat.setCol at e
  obtain ⟨_, _, e⟩ := bind_eq_ok.1 e
  obtain ⟨_, e2, _⟩ := bind_eq_ok.1 e
  exact require_eq_ok.1 e2

theorem Mat.col_sizes {α : Type} {m : Mat α} {j : Nat} {v : Vec α} (e : m.col j = .ok v) :
    j < m.cols ∧ v = ⟨m.rows, fun i => m.get i j⟩ := by
  unfold Mat.col at e
  obtain ⟨_, e1, e⟩ := bind_eq_ok.1 e
  cases e
  exact ⟨require_eq_ok.1 e1, rfl⟩

theorem Vec.comma_sizes {α : Type} {a b r : Vec α} {n : Nat} (e : Vec.comma n a b = .ok r) : a.size + b.size = n := by
  unfold Vec.comma at e
  obtain ⟨_, e1, _⟩ := bind_eq_ok.1 e
  exact require_eq_ok.1 e1

theorem Vec.setSeg_sizes {α : Type} {v src r : Vec α} {s n : Nat} (e : v.setSeg s n src = .ok r) : src.size = n := by
  unfold Vec.setSeg at e
  obtain ⟨_, _, e⟩ := bind_eq_ok.1 e
  obtain ⟨_, e2, _⟩ := bind_eq_ok.1 e
  exact require_eq_ok.1 e2

theorem Mat.mulVec_sizes {α : Type} [Zero α] [Add α] [Mul α] {m : Mat α} {v r : Vec α} (e : m.mulVec v = .ok r) :
    m.cols = v.size := by
  unfold Mat.mulVec at e
  obtain ⟨_, e1, _⟩ := bind_eq_ok.1 e
  exact require_eq_ok.1 e1

theorem Vec.diagMul_sizes {α : Type} [Mul α] {v w r : Vec α} (e : v.diagMul w = .ok r) : v.size = w.size := by
  unfold Vec.diagMul at e
  obtain ⟨_, e1, _⟩ := bind_eq_ok.1 e
  exact require_eq_ok.1 e1

/-- If a loop ends normally, so did each of its iterations. -/
theorem forFrom_visits {σ : Type} {lo n : Nat} {s s' : σ} {body : Nat → σ → Exec σ} (h : forFrom lo n s body = .ok s') :
    ∀ i, lo ≤ i → i < lo + n → ∃ t t', body i t = .ok t' := by
  induction n generalizing lo s with
  | zero => intro i h1 h2; omega
  | succ n ih =>
    unfold forFrom at h
    obtain ⟨t, ht, h⟩ := bind_eq_ok.1 h
    intro i h1 h2
    by_cases hi : i = lo
    · subst hi; exact ⟨s, t, ht⟩
    · exact ih h i (by omega) (by omega)

theorem forRange_visits {σ : Type} {n : Nat} {s s' : σ} {body : Nat → σ → Exec σ} (h : forRange n s body = .ok s') {i : Nat}
    (hi : i < n) : ∃ t t', body i t = .ok t' := forFrom_visits h i (by omega) (by omega)

theorem replicateCols_sizes {α : Type} {rows cols : Nat} {uninit : Nat → Nat → α} {v : Vec α} {r : Mat α}
    (hc : 0 < cols) (e : replicateCols rows cols uninit v = .ok r) : v.size = rows := by
  unfold replicateCols forRange at e
  cases cols with
  | zero => omega
  | succ n =>
    unfold forFrom at e
    obtain ⟨t, ht, _⟩ := bind_eq_ok.1 e
    exact Mat.setCol_sizes ht

/-- A loop over a valid slice runs its body at least once, on the state it starts with. -/
theorem sliceLoop_first {σ : Type} {sl : HorizonSlice} {s : σ} {f : Nat → σ → Exec (σ × Bool)} {r : σ × Bool} {h : Nat}
    (h0 : 0 ≤ sl.start) (hv : isSliceValid h sl = .ok true) (hh : h < 2 ^ 31) (e : sliceLoop sl s f = .ok r) :
    ∃ i r', f i s = .ok r' := by
  have hlt : sl.start < sl.stop ∧ sl.stop ≤ h := by
    unfold isSliceValid at hv
    split_ifs at hv with hc
    · cases hv
    · rw [not_or, not_or] at hc
      omega
  unfold sliceLoop at e
  have e1 : toSizeT sl.start = sl.start.toNat := by unfold toSizeT; rw [Int.emod_eq_of_lt h0 (by omega)]
  have e2 : toSizeT sl.stop = sl.stop.toNat := by unfold toSizeT; rw [Int.emod_eq_of_lt (by omega) (by omega)]
  rw [e1, e2] at e
  obtain ⟨n, hn⟩ : ∃ n, sl.stop.toNat - sl.start.toNat = n + 1 := ⟨sl.stop.toNat - sl.start.toNat - 1, by omega⟩
  rw [hn] at e
  unfold forFrom at e
  obtain ⟨t, ht, _⟩ := bind_eq_ok.1 e
  exact ⟨_, t, ht⟩

namespace Builder
variable {K : Type} [Zero K] [One K] [Add K] [Mul K] [Neg K] {b : Builder K} {r : Builder K × Bool}

theorem shiftedAssign_sizes {α : Type} {m M r : Mat α} {n ph : Nat} (e : shiftedAssign m M n ph = .ok r) : M.rows = n ∧ M.cols = ph := by
  unfold shiftedAssign at e
  obtain ⟨_, e, _⟩ := bind_eq_ok.1 e
  exact Mat.setBlock_sizes e

theorem indexAssign_sizes {α : Type} {m r : Mat α} {i n : Nat} {v : Vec α} (e : indexAssign m i n v = .ok r) : v.size = n := by
  unfold indexAssign at e
  obtain ⟨_, e, _⟩ := bind_eq_ok.1 e
  exact (Mat.setBlock_sizes e).1

theorem fillMultiplier_sizes {d : Dims} {m r : Mat K} {X U : Vec K} (e : fillMultiplier d m X U = .ok r) :
    X.size + U.size = d.nx + d.nu := by
  unfold fillMultiplier at e
  obtain ⟨t, t', h⟩ := forRange_visits e (i := 0) (by omega)
  obtain ⟨_, e, _⟩ := bind_eq_ok.1 h
  exact Vec.comma_sizes e

theorem setStateModel_sizes {A B C : Mat K} (e : b.setStateModel A B C = .ok r) :
    (A.rows = b.d.nx ∧ A.cols = b.d.nx) ∧ (B.rows = b.d.nx ∧ B.cols = b.d.nu) ∧ (C.rows = b.d.ny ∧ C.cols = b.d.nx) := by
  unfold setStateModel at e
  obtain ⟨_, e1, e⟩ := bind_eq_ok.1 e
  obtain ⟨_, e2, e⟩ := bind_eq_ok.1 e
  obtain ⟨_, _, e⟩ := bind_eq_ok.1 e
  obtain ⟨_, _, e⟩ := bind_eq_ok.1 e
  obtain ⟨_, _, e⟩ := bind_eq_ok.1 e
  obtain ⟨_, _, e⟩ := bind_eq_ok.1 e
  obtain ⟨_, e3, e⟩ := bind_eq_ok.1 e
  exact ⟨Mat.setBlock_sizes e1, Mat.setBlock_sizes e2, Mat.setBlock_sizes e3⟩

theorem setExogenousInput_sizes {Bd Dd : Mat K} (e : b.setExogenousInput Bd Dd = .ok r) :
    (Bd.rows = b.d.nx ∧ Bd.cols = b.d.ndu) ∧ (Dd.rows = b.d.ny ∧ Dd.cols = b.d.ndu) := by
  unfold setExogenousInput at e
  obtain ⟨_, e1, e⟩ := bind_eq_ok.1 e
  obtain ⟨_, e2, e⟩ := bind_eq_ok.1 e
  exact ⟨Mat.setBlock_sizes e1, Mat.setBlock_sizes e2⟩

theorem buildP_sizes {P : Mat K} (hph : 0 < b.d.ph) (e : b.buildP = .ok P) :
    b.wDeltaU.rows = b.d.nu ∧ b.d.ph ≤ b.wDeltaU.cols := by
  unfold buildP at e
  obtain ⟨_, e, _⟩ := bind_eq_ok.1 e
  have key : ∀ i, i < b.d.ph → i < b.wDeltaU.cols ∧ b.wDeltaU.rows = b.d.nu := by
    intro i hi
    obtain ⟨t, t', h⟩ := forRange_visits e (i := i) (by omega)
    obtain ⟨w, P⟩ := t
    obtain ⟨_, _, h⟩ := bind_eq_ok.1 h
    obtain ⟨_, _, h⟩ := bind_eq_ok.1 h
    obtain ⟨_, _, h⟩ := bind_eq_ok.1 h
    obtain ⟨_, _, h⟩ := bind_eq_ok.1 h
    obtain ⟨_, _, h⟩ := bind_eq_ok.1 h
    obtain ⟨_, _, h⟩ := bind_eq_ok.1 h
    obtain ⟨_, _, h⟩ := bind_eq_ok.1 h
    rw [if_pos hi] at h
    obtain ⟨cd, h1, h⟩ := bind_eq_ok.1 h
    obtain ⟨_, h2, _⟩ := bind_eq_ok.1 h
    obtain ⟨g1, rfl⟩ := Mat.col_sizes h1
    exact ⟨g1, (Mat.setBlock_sizes h2).1⟩
  exact ⟨(key 0 hph).2, by have := (key (b.d.ph - 1) (by omega)).1; omega⟩

theorem build_sizes (hph : 0 < b.d.ph) (e : b.build = .ok r) : b.wDeltaU.rows = b.d.nu ∧ b.d.ph ≤ b.wDeltaU.cols := by
  unfold build at e
  obtain ⟨_, e, _⟩ := bind_eq_ok.1 e
  exact buildP_sizes hph e

theorem setObjective_sizes {OW UW DW : Mat K} (hph : 0 < b.d.ph) (e : b.setObjective OW UW DW = .ok r) :
    (OW.rows = b.d.ny ∧ OW.cols = b.d.ph) ∧ (UW.rows = b.d.nu ∧ UW.cols = b.d.ph) ∧ DW.rows = b.d.nu ∧ b.d.ph ≤ DW.cols := by
  unfold setObjective at e
  obtain ⟨_, e1, e⟩ := bind_eq_ok.1 e
  obtain ⟨_, e2, e⟩ := bind_eq_ok.1 e
  exact ⟨shiftedAssign_sizes e1, shiftedAssign_sizes e2, build_sizes (b := { b with wDeltaU := DW, wOutput := _, wU := _ }) hph e⟩

theorem setObjectiveAt_sizes {OW UW DW : Vec K} {i : Nat} (e : b.setObjectiveAt i OW UW DW = .ok r) :
    OW.size = b.d.ny ∧ UW.size = b.d.nu ∧ DW.size = b.d.nu := by
  unfold setObjectiveAt at e
  obtain ⟨_, e1, e⟩ := bind_eq_ok.1 e
  obtain ⟨_, e2, e⟩ := bind_eq_ok.1 e
  obtain ⟨_, e3, e⟩ := bind_eq_ok.1 e
  exact ⟨indexAssign_sizes e1, indexAssign_sizes e2, (Mat.setBlock_sizes e3).1⟩

theorem setScalarConstraintAt_sizes {mn mx : Ext K} {X U : Vec K} {i : Nat} (e : b.setScalarConstraintAt i mn mx X U = .ok r) :
    X.size + U.size = b.d.nx + b.d.nu := by
  unfold setScalarConstraintAt at e
  obtain ⟨_, _, e⟩ := bind_eq_ok.1 e
  obtain ⟨_, _, e⟩ := bind_eq_ok.1 e
  obtain ⟨_, e, _⟩ := bind_eq_ok.1 e
  exact fillMultiplier_sizes e

theorem setScalarConstraint_sizes {mn mx : Vec (Ext K)} {X U : Vec K} (e : b.setScalarConstraint mn mx X U = .ok r) :
    X.size + U.size = b.d.nx + b.d.nu := by
  unfold setScalarConstraint at e
  obtain ⟨_, _, e⟩ := bind_eq_ok.1 e
  obtain ⟨_, _, e⟩ := bind_eq_ok.1 e
  obtain ⟨_, e, _⟩ := bind_eq_ok.1 e
  exact fillMultiplier_sizes e

variable {mn mx : Mat (Ext K)} {mnv mxv : Vec (Ext K)} {i : Nat}

theorem setStateBounds_sizes (e : b.setStateBounds mn mx = .ok r) :
    (mn.rows = b.d.nx ∧ mn.cols = b.d.ph) ∧ (mx.rows = b.d.nx ∧ mx.cols = b.d.ph) := by
  unfold setStateBounds at e
  obtain ⟨_, e1, e⟩ := bind_eq_ok.1 e
  obtain ⟨_, e2, e⟩ := bind_eq_ok.1 e
  exact ⟨shiftedAssign_sizes e1, shiftedAssign_sizes e2⟩

theorem setOutputBounds_sizes (e : b.setOutputBounds mn mx = .ok r) :
    (mn.rows = b.d.ny ∧ mn.cols = b.d.ph) ∧ (mx.rows = b.d.ny ∧ mx.cols = b.d.ph) := by
  unfold setOutputBounds at e
  obtain ⟨_, e1, e⟩ := bind_eq_ok.1 e
  obtain ⟨_, e2, e⟩ := bind_eq_ok.1 e
  exact ⟨shiftedAssign_sizes e1, shiftedAssign_sizes e2⟩

theorem setInputBounds_sizes (e : b.setInputBounds mn mx = .ok r) :
    (mn.rows = b.d.nu ∧ mn.cols = b.d.ch) ∧ (mx.rows = b.d.nu ∧ mx.cols = b.d.ch) := by
  unfold setInputBounds at e
  obtain ⟨_, e1, e⟩ := bind_eq_ok.1 e
  obtain ⟨_, e2, e⟩ := bind_eq_ok.1 e
  exact ⟨Mat.setBlock_sizes e1, Mat.setBlock_sizes e2⟩

theorem setStateBoundsAt_sizes (e : b.setStateBoundsAt i mnv mxv = .ok r) : mnv.size = b.d.nx ∧ mxv.size = b.d.nx := by
  unfold setStateBoundsAt at e
  obtain ⟨_, e1, e⟩ := bind_eq_ok.1 e
  obtain ⟨_, e2, e⟩ := bind_eq_ok.1 e
  exact ⟨indexAssign_sizes e1, indexAssign_sizes e2⟩

theorem setOutputBoundsAt_sizes (e : b.setOutputBoundsAt i mnv mxv = .ok r) : mnv.size = b.d.ny ∧ mxv.size = b.d.ny := by
  unfold setOutputBoundsAt at e
  obtain ⟨_, e1, e⟩ := bind_eq_ok.1 e
  obtain ⟨_, e2, e⟩ := bind_eq_ok.1 e
  exact ⟨indexAssign_sizes e1, indexAssign_sizes e2⟩

theorem setInputBoundsAt_sizes (e : b.setInputBoundsAt i mnv mxv = .ok r) : mnv.size = b.d.nu ∧ mxv.size = b.d.nu := by
  unfold setInputBoundsAt at e
  obtain ⟨_, e1, e⟩ := bind_eq_ok.1 e
  obtain ⟨_, e2, e⟩ := bind_eq_ok.1 e
  exact ⟨(Mat.setBlock_sizes e1).1, (Mat.setBlock_sizes e2).1⟩

/-- Sizes of the arguments of a `get` which returned. -/
theorem get_sizes {b' : Builder K} {x0 u0 : Vec K} {Y U D M : Mat K} (hph : 0 < b.d.ph) (e : b.get x0 u0 Y U D M = .ok b') :
    (x0.size = b.d.nx ∧ u0.size = b.d.nu) ∧ (Y.rows + U.rows = b.d.ny + b.d.nu ∧ D.rows = b.wDeltaU.rows ∧
      b.d.ph ≤ Y.cols ∧ b.d.ph ≤ U.cols ∧ b.d.ph ≤ D.cols) ∧ (M.rows = b.ssDv.cols ∧ b.d.ph ≤ M.cols) := by
  unfold get at e
  obtain ⟨s, e0, e⟩ := bind_eq_ok.1 e
  obtain ⟨_, e1, e⟩ := bind_eq_ok.1 e
  obtain ⟨_, e2, e⟩ := bind_eq_ok.1 e
  have key : ∀ i, i < b.d.ph + 1 → (if i = 0 then 0 else i - 1) < Y.cols ∧ (if i = 0 then 0 else i - 1) < U.cols ∧
      (if i = 0 then 0 else i - 1) < D.cols ∧ (if i = 0 then 0 else i - 1) < M.cols ∧ Y.rows + U.rows = b.d.ny + b.d.nu ∧
      M.rows = b.ssDv.cols ∧ (i < b.d.ph → D.rows = b.wDeltaU.rows) := by
    intro i hi
    obtain ⟨t, t', h⟩ := forRange_visits e0 (i := i) hi
    unfold getBody at h
    obtain ⟨_, h1, h⟩ := bind_eq_ok.1 h
    obtain ⟨_, h2, h⟩ := bind_eq_ok.1 h
    obtain ⟨_, h3, h⟩ := bind_eq_ok.1 h
    obtain ⟨_, h4, h⟩ := bind_eq_ok.1 h
    obtain ⟨_, h5, h⟩ := bind_eq_ok.1 h
    obtain ⟨_, _, h⟩ := bind_eq_ok.1 h
    obtain ⟨_, _, h⟩ := bind_eq_ok.1 h
    obtain ⟨_, _, h⟩ := bind_eq_ok.1 h
    obtain ⟨_, _, h⟩ := bind_eq_ok.1 h
    obtain ⟨_, _, h⟩ := bind_eq_ok.1 h
    obtain ⟨_, h6, h⟩ := bind_eq_ok.1 h
    obtain ⟨_, _, h⟩ := bind_eq_ok.1 h
    obtain ⟨_, _, h⟩ := bind_eq_ok.1 h
    obtain ⟨_, _, h⟩ := bind_eq_ok.1 h
    obtain ⟨_, h7, h⟩ := bind_eq_ok.1 h
    obtain ⟨g1, rfl⟩ := Mat.col_sizes h1
    obtain ⟨g2, rfl⟩ := Mat.col_sizes h2
    obtain ⟨g3, rfl⟩ := Mat.col_sizes h3
    obtain ⟨g4, rfl⟩ := Mat.col_sizes h4
    refine ⟨g1, g2, g3, g4, Vec.comma_sizes h5, (Mat.mulVec_sizes h6).symm, fun hlt => ?_⟩
    rw [if_pos hlt] at h7
    obtain ⟨_, h8, h7⟩ := bind_eq_ok.1 h7
    obtain ⟨_, h9, _⟩ := bind_eq_ok.1 h7
    obtain ⟨-, rfl⟩ := Mat.col_sizes h8
    exact (Vec.diagMul_sizes h9).symm
  have k0 := key 0 (by omega)
  have k1 := key b.d.ph (by omega)
  rw [if_neg (by omega)] at k1
  have s1 := Vec.setSeg_sizes e1
  have s2 := Vec.setSeg_sizes e2
  exact ⟨⟨s1, s2⟩, ⟨k0.2.2.2.2.1, k0.2.2.2.2.2.2 hph, by omega, by omega, by omega⟩, k0.2.2.2.2.2.1, by omega⟩

end Builder

/-- What a run of the optimizer needs of the state and the arguments. -/
theorem LOpt.run_sizes {K : Type} [Zero K] [One K] [Add K] [Mul K] [Neg K] [Div K] [NatCast K] [DecidableEq K] {o : LOpt K}
    {b : Builder K} {x0 u0 : Vec K} {oc : OsqpOutcome K} {r} (hph : 0 < b.d.ph) (e : o.run b x0 u0 oc = .ok r) :
    (x0.size = b.d.nx ∧ u0.size = b.d.nu) ∧ (o.outSysRef.rows + o.cmdSysRef.rows = b.d.ny + b.d.nu ∧
      o.deltaCmdSysRef.rows = b.wDeltaU.rows ∧ b.d.ph ≤ o.outSysRef.cols ∧ b.d.ph ≤ o.cmdSysRef.cols ∧
      b.d.ph ≤ o.deltaCmdSysRef.cols) ∧ (o.extInputMeas.rows = b.ssDv.cols ∧ b.d.ph ≤ o.extInputMeas.cols) := by
  unfold run at e
  obtain ⟨_, e, _⟩ := bind_eq_ok.1 e
  exact Builder.get_sizes hph e

end Mpc

namespace Mpc
open Exec
set_option linter.unusedSectionVars false
variable {K : Type} [Zero K] [One K] [Add K] [Mul K] [Neg K] [Div K] [NatCast K] [ExactOps K] [DecidableEq K]

theorem isSliceUnset_iff {s : HorizonSlice} : isSliceUnset s = true ↔ s = HorizonSlice.all := by
  cases s with
  | mk a b => simp [isSliceUnset, HorizonSlice.all]

theorem LMpc.onBuilder_ok {m m' : LMpc K} {out : LOut K} {f : Builder K → Exec (Builder K × Bool)} (e : m.onBuilder f = .ok (m', out)) :
    ∃ r, f m.b = .ok r := by
  unfold onBuilder at e
  obtain ⟨r, h, _⟩ := bind_eq_ok.1 e
  exact ⟨r, h⟩

theorem LMpc.onOptimizer_ok {m m' : LMpc K} {out : LOut K} {f : LOpt K → Exec (LOpt K × Bool)} (e : m.onOptimizer f = .ok (m', out)) :
    ∃ r, f m.o = .ok r := by
  unfold onOptimizer at e
  obtain ⟨r, h, _⟩ := bind_eq_ok.1 e
  exact ⟨r, h⟩

/-- A slice setter which returned: it refused the slice, or its body ran (for the first step of the slice or as a whole). -/
theorem sliceCall {σ : Type} {s : HorizonSlice} {P : Prop} {whole step : Exec σ} {m : σ} {h : Nat} {r : σ} {refused : σ}
    (e : (if isSliceUnset s then whole else do
        let v ← isSliceValid h s
        if v then step else return refused) = .ok r) (hn : s = HorizonSlice.all ∨ 0 ≤ s.start)
    (hw : whole = .ok r → P) (hs : 0 ≤ s.start → isSliceValid h s = .ok true → step = .ok r → P) :
    P ∨ r = refused := by
  split_ifs at e with hu
  · exact .inl (hw e)
  · have h0 : 0 ≤ s.start := hn.resolve_left fun hh => hu (isSliceUnset_iff.2 hh)
    obtain ⟨v, hv, e⟩ := bind_eq_ok.1 e
    cases v with
    | true => exact .inl (hs h0 hv e)
    | false => exact .inr (by cases e; rfl)

/-- A call which returned has arguments of the sizes it tests, or it refused its slice and did nothing. -/
theorem LMpc.step_tested {d : Dims} {m m' : LMpc K} {c : Spec.LinConfig K} (hd : d.Valid) (hm : Inv d m c) {op : LOp K}
    (hn : Spec.SliceNonneg op) {out : LOut K} (e : m.step op = .ok (m', out)) :
    Spec.SizesTested d op ∨ (m' = m ∧ out = .bool false) := by
  have hmd := hm.dims
  have hbd : m.b.d = d := hm.builder.dims
  have hph := hd.ph_pos
  have hch := hd.ch_pos
  have p31 := hd.ph_int
  have c31 := hd.ch_int
  cases op with
  | setStateSpaceModel A B C =>
    simp only [step] at e
    obtain ⟨r, h⟩ := onBuilder_ok e
    exact .inl (by have := Builder.setStateModel_sizes h; rwa [hbd] at this)
  | setDisturbances Bd Dd =>
    simp only [step] at e
    obtain ⟨r, h⟩ := onBuilder_ok e
    exact .inl (by have := Builder.setExogenousInput_sizes h; rwa [hbd] at this)
  | setObjectiveWeights OW UW DW =>
    simp only [step] at e
    obtain ⟨r, h⟩ := onBuilder_ok e
    exact .inl (by have := Builder.setObjective_sizes (hbd ▸ hph) h; rwa [hbd] at this)
  | setObjectiveWeightsSlice OW UW DW s =>
    subst hmd
    refine (sliceCall (P := Spec.SizesTested m.d (.setObjectiveWeightsSlice OW UW DW s)) (m := (m, out)) e (hn s rfl) ?_ ?_).imp
      id fun h => ⟨congrArg Prod.fst h, congrArg Prod.snd h⟩
    · intro h
      obtain ⟨_, h1, h⟩ := bind_eq_ok.1 h
      obtain ⟨_, h2, h⟩ := bind_eq_ok.1 h
      obtain ⟨_, h3, h⟩ := bind_eq_ok.1 h
      exact ⟨replicateCols_sizes hph h1, replicateCols_sizes hph h2, replicateCols_sizes hph h3⟩
    · intro h0 hv h
      obtain ⟨r, h⟩ := onBuilder_ok h
      obtain ⟨i, r', h⟩ := sliceLoop_first h0 hv p31 h
      have := Builder.setObjectiveAt_sizes h
      rwa [hbd] at this
  | setStateBounds mn mx =>
    simp only [step] at e
    obtain ⟨r, h⟩ := onBuilder_ok e
    exact .inl (by have := Builder.setStateBounds_sizes h; rwa [hbd] at this)
  | setStateBoundsSlice mn mx s =>
    subst hmd
    refine (sliceCall (P := Spec.SizesTested m.d (.setStateBoundsSlice mn mx s)) (m := (m, out)) e (hn s rfl) ?_ ?_).imp
      id fun h => ⟨congrArg Prod.fst h, congrArg Prod.snd h⟩
    · intro h
      obtain ⟨_, h1, h⟩ := bind_eq_ok.1 h
      obtain ⟨_, h2, h⟩ := bind_eq_ok.1 h
      exact ⟨replicateCols_sizes hph h1, replicateCols_sizes hph h2⟩
    · intro h0 hv h
      obtain ⟨r, h⟩ := onBuilder_ok h
      obtain ⟨i, r', h⟩ := sliceLoop_first h0 hv p31 h
      have := Builder.setStateBoundsAt_sizes h
      rwa [hbd] at this
  | setInputBounds mn mx =>
    simp only [step] at e
    obtain ⟨r, h⟩ := onBuilder_ok e
    exact .inl (by have := Builder.setInputBounds_sizes h; rwa [hbd] at this)
  | setInputBoundsSlice mn mx s =>
    subst hmd
    refine (sliceCall (P := Spec.SizesTested m.d (.setInputBoundsSlice mn mx s)) (m := (m, out)) e (hn s rfl) ?_ ?_).imp
      id fun h => ⟨congrArg Prod.fst h, congrArg Prod.snd h⟩
    · intro h
      obtain ⟨_, h1, h⟩ := bind_eq_ok.1 h
      obtain ⟨_, h2, h⟩ := bind_eq_ok.1 h
      exact ⟨replicateCols_sizes hch h1, replicateCols_sizes hch h2⟩
    · intro h0 hv h
      obtain ⟨r, h⟩ := onBuilder_ok h
      obtain ⟨i, r', h⟩ := sliceLoop_first h0 hv c31 h
      have := Builder.setInputBoundsAt_sizes h
      rwa [hbd] at this
  | setOutputBounds mn mx =>
    simp only [step] at e
    obtain ⟨r, h⟩ := onBuilder_ok e
    exact .inl (by have := Builder.setOutputBounds_sizes h; rwa [hbd] at this)
  | setOutputBoundsSlice mn mx s =>
    subst hmd
    refine (sliceCall (P := Spec.SizesTested m.d (.setOutputBoundsSlice mn mx s)) (m := (m, out)) e (hn s rfl) ?_ ?_).imp
      id fun h => ⟨congrArg Prod.fst h, congrArg Prod.snd h⟩
    · intro h
      obtain ⟨_, h1, h⟩ := bind_eq_ok.1 h
      obtain ⟨_, h2, h⟩ := bind_eq_ok.1 h
      exact ⟨replicateCols_sizes hph h1, replicateCols_sizes hph h2⟩
    · intro h0 hv h
      obtain ⟨r, h⟩ := onBuilder_ok h
      obtain ⟨i, r', h⟩ := sliceLoop_first h0 hv p31 h
      have := Builder.setOutputBoundsAt_sizes h
      rwa [hbd] at this
  | setScalarConstraintSlice mn mx X U s =>
    subst hmd
    refine (sliceCall (P := Spec.SizesTested m.d (.setScalarConstraintSlice mn mx X U s)) (m := (m, out)) e (hn s rfl) ?_ ?_).imp
      id fun h => ⟨congrArg Prod.fst h, congrArg Prod.snd h⟩
    · intro h
      obtain ⟨_, h1, h⟩ := bind_eq_ok.1 h
      obtain ⟨_, h2, h⟩ := bind_eq_ok.1 h
      obtain ⟨r, h⟩ := onBuilder_ok h
      have := Builder.setScalarConstraint_sizes h
      rwa [hbd] at this
    · intro h0 hv h
      obtain ⟨r, h⟩ := onBuilder_ok h
      obtain ⟨i, r', h⟩ := sliceLoop_first h0 hv p31 h
      have := Builder.setScalarConstraintAt_sizes h
      rwa [hbd] at this
  | setScalarConstraintAt i mn mx X U =>
    simp only [step, LMpc.setScalarConstraintAt] at e
    split_ifs at e
    · exact .inr (by cases e; exact ⟨rfl, rfl⟩)
    · obtain ⟨r, h⟩ := onBuilder_ok e
      exact .inl (by have := Builder.setScalarConstraintAt_sizes h; rwa [hbd] at this)
  | setExogenousInputs M => exact .inl trivial
  | setExogenousInputsSlice v s =>
    subst hmd
    refine (sliceCall (P := Spec.SizesTested m.d (.setExogenousInputsSlice v s)) (m := (m, out)) e (hn s rfl) ?_ ?_).imp
      id fun h => ⟨congrArg Prod.fst h, congrArg Prod.snd h⟩
    · intro h
      obtain ⟨_, h1, h⟩ := bind_eq_ok.1 h
      exact replicateCols_sizes hph h1
    · intro h0 hv h
      obtain ⟨r, h⟩ := onOptimizer_ok h
      obtain ⟨i, r', h⟩ := sliceLoop_first h0 hv c31 h
      unfold LOpt.setExogenousInputsAt at h
      obtain ⟨_, h, _⟩ := bind_eq_ok.1 h
      have := Mat.setCol_sizes h
      rwa [hm.opt.dSize.1] at this
  | setReferences Y U D => exact .inl trivial
  | setReferencesSlice y u du s =>
    subst hmd
    refine (sliceCall (P := Spec.SizesTested m.d (.setReferencesSlice y u du s)) (m := (m, out)) e (hn s rfl) ?_ ?_).imp
      id fun h => ⟨congrArg Prod.fst h, congrArg Prod.snd h⟩
    · intro h
      obtain ⟨_, h1, h⟩ := bind_eq_ok.1 h
      obtain ⟨_, h2, h⟩ := bind_eq_ok.1 h
      obtain ⟨_, h3, h⟩ := bind_eq_ok.1 h
      exact ⟨replicateCols_sizes hph h1, replicateCols_sizes hph h2, replicateCols_sizes hph h3⟩
    · intro h0 hv h
      obtain ⟨r, h⟩ := onOptimizer_ok h
      obtain ⟨i, r', h⟩ := sliceLoop_first h0 hv p31 h
      unfold LOpt.setReferencesAt at h
      obtain ⟨_, h1, h⟩ := bind_eq_ok.1 h
      obtain ⟨_, h2, h⟩ := bind_eq_ok.1 h
      obtain ⟨_, h3, h⟩ := bind_eq_ok.1 h
      have e1 := Mat.setCol_sizes h1
      have e2 := Mat.setCol_sizes h2
      have e3 := Mat.setCol_sizes h3
      rw [hm.opt.ySize.1] at e1
      rw [hm.opt.uSize.1] at e2
      rw [hm.opt.duSize.1] at e3
      exact ⟨e1, e2, e3⟩
  | setOptimizerParameters p => exact .inl trivial
  | setSolverWarmStart x y => exact .inl trivial
  | setDiscretizationSamplingTime t => exact .inl trivial
  | setInputScale t => exact .inl trivial
  | setStateScale t => exact .inl trivial
  | optimize x0 u0 oc =>
    simp only [step] at e
    obtain ⟨⟨o', b', call⟩, h, _⟩ := bind_eq_ok.1 e
    exact .inl (by have := (LOpt.run_sizes (hbd ▸ hph) h).1; rwa [hbd] at this)

/-! ### Columns beyond the horizon -/

theorem forFrom_congr {σ : Type} {lo n : Nat} {s : σ} {f g : Nat → σ → Exec σ} (h : ∀ i t, lo ≤ i → i < lo + n → f i t = g i t) :
    forFrom lo n s f = forFrom lo n s g := by
  induction n generalizing lo s with
  | zero => rfl
  | succ n ih =>
    unfold forFrom
    rw [h lo s (by omega) (by omega)]
    refine bind_congr fun t => ih fun i t h1 h2 => h i t (by omega) (by omega)

theorem firstCols_col {α : Type} {M : Mat α} {n j : Nat} (hj : j < n) (hn : n ≤ M.cols) : (Spec.firstCols n M).col j = M.col j := by
  rw [Mat.col_ok (show j < (Spec.firstCols n M).cols from hj), Mat.col_ok (by omega)]
  rfl

theorem Builder.get_firstCols {b : Builder K} (hph : 0 < b.d.ph) {x0 u0 : Vec K} {Y U D M : Mat K} (hY : b.d.ph ≤ Y.cols)
    (hU : b.d.ph ≤ U.cols) (hD : b.d.ph ≤ D.cols) (hM : b.d.ph ≤ M.cols) :
    b.get x0 u0 (Spec.firstCols b.d.ph Y) (Spec.firstCols b.d.ph U) (Spec.firstCols b.d.ph D) (Spec.firstCols b.d.ph M) =
      b.get x0 u0 Y U D M := by
  have key : ∀ s0, forRange (b.d.ph + 1) s0 (b.getBody (Spec.firstCols b.d.ph Y) (Spec.firstCols b.d.ph U)
      (Spec.firstCols b.d.ph D) (Spec.firstCols b.d.ph M)) = forRange (b.d.ph + 1) s0 (b.getBody Y U D M) := by
    intro s0
    refine forFrom_congr fun i t _ hi => ?_
    have hc : (if i = 0 then 0 else i - 1) < b.d.ph := by split_ifs <;> omega
    unfold getBody
    simp only [firstCols_col hc hY, firstCols_col hc hU, firstCols_col hc hD, firstCols_col hc hM]
  unfold get
  simp only [key]

/-- references and disturbances replaced -/
def LOpt.stored (o : LOpt K) (Y U D M : Mat K) : LOpt K :=
  { o with outSysRef := Y, cmdSysRef := U, deltaCmdSysRef := D, extInputMeas := M }

theorem bind_eq_map {α β γ : Type} {e : Exec α} {f : α → Exec β} {g : α → Exec γ} {h : γ → β} (hk : ∀ a, f a = (g a).map h) :
    (e >>= f) = (e >>= g).map h := by
  cases e with
  | error x => rfl
  | ok a => exact hk a

theorem LOpt.extract_stored {o : LOpt K} {b : Builder K} {x : Vec K} {Y U D M Y' U' D' M' : Mat K}
    (hM : ∀ j, j < o.d.ph → M.col j = M'.col j) (hph : 0 < o.d.ph) :
    (o.stored Y U D M).extract b x = (o.stored Y' U' D' M').extract b x := by
  unfold extract
  refine forFrom_congr fun i t _ hi => ?_
  have hc : (if i = 0 then 0 else i - 1) < o.d.ph := by
    have : i < 0 + (o.d.ph + 1) := hi
    split_ifs <;> omega
  obtain ⟨S, V, W⟩ := t
  change (_ >>= fun _ => _ >>= fun _ => _ >>= fun _ => M.col (if i = 0 then 0 else i - 1) >>= _) = _
  rw [hM _ hc]
  rfl

theorem LOpt.clearData_stored {o : LOpt K} {Y U D M Y' U' D' M' : Mat K} :
    (o.stored Y U D M).clearData = ((o.stored Y' U' D' M').clearData).map fun o => o.stored Y U D M := by
  unfold clearData
  refine bind_eq_map fun _ => ?_
  refine bind_eq_map fun r => ?_
  obtain ⟨r1, r2, r3⟩ := r
  refine bind_eq_map fun _ => ?_
  rfl

theorem bind_map_left {α β γ δ : Type} {e : Exec α} {e' : Exec β} {f : α → Exec γ} {g : β → Exec δ} {k : β → α} {h : δ → γ}
    (he : e = e'.map k) (hk : ∀ b, f (k b) = (g b).map h) : (e >>= f) = (e' >>= g).map h := by
  subst he
  cases e' with
  | error x => rfl
  | ok b => exact hk b

theorem self_map_id {α : Type} (e : Exec α) : e = e.map id := by cases e <;> rfl

/-- Runs with references and disturbances which agree where they are read. -/
theorem LOpt.run_stored {o : LOpt K} {b : Builder K} {x0 u0 : Vec K} {oc : OsqpOutcome K} {Y U D M Y' U' D' M' : Mat K}
    (hg : b.get x0 u0 Y U D M = b.get x0 u0 Y' U' D' M') (hM : ∀ j, j < o.d.ph → M.col j = M'.col j) (hph : 0 < o.d.ph) :
    (o.stored Y U D M).run b x0 u0 oc = ((o.stored Y' U' D' M').run b x0 u0 oc).map fun r => (r.1.stored Y U D M, r.2) := by
  unfold run
  change (b.get x0 u0 Y U D M >>= _) = (b.get x0 u0 Y' U' D' M' >>= _).map _
  rw [hg]
  refine bind_eq_map fun b' => ?_
  rcases hgs : getSparse b'.P b'.A with ⟨P, A⟩
  simp only
  refine bind_eq_map fun cP => ?_
  refine bind_eq_map fun cA => ?_
  cases cP with
  | none => rfl
  | some cP =>
    cases cA with
    | none => rfl
    | some cA =>
      cases oc with
      | rejected =>
        refine bind_eq_map fun _ => ?_
        refine bind_eq_map fun _ => ?_
        refine bind_eq_map fun _ => ?_
        simp only [ok_bind]
        refine bind_map_left (LOpt.clearData_stored (o := { o with leaked := _, settings := .live, data := .live, dataP := .live, dataA := .live })
          (Y := Y) (U := U) (D := D) (M := M) (Y' := Y') (U' := U') (D' := D') (M' := M')) fun o2 => ?_
        rfl
      | answered st obj sol =>
        refine bind_eq_map fun _ => ?_
        refine bind_eq_map fun _ => ?_
        refine bind_eq_map fun _ => ?_
        cases sol with
        | none =>
          simp only [pure_bind']
          refine bind_map_left (LOpt.clearData_stored (o := { o with leaked := _, settings := .live, data := .live, dataP := .live, dataA := .live, work := .live, seqState := _, seqInput := _, seqOutput := _, result := _ })
            (Y := Y) (U := U) (D := D) (M := M) (Y' := Y') (U' := U') (D' := D') (M' := M')) fun o2 => ?_
          rfl
        | some xy =>
          obtain ⟨x, y⟩ := xy
          refine bind_map_left (k := fun o => o.stored Y U D M) ?_ (fun o2 => ?_)
          · refine bind_map_left (k := id) ?_ fun r => ?_
            · have := LOpt.extract_stored (o := { o with prevX := ⟨P.rows, x⟩, prevY := ⟨A.rows, y⟩, work := .live }) (b := b') (x := ⟨P.rows, x⟩) (Y := Y) (U := U) (D := D) (Y' := Y') (U' := U') (D' := D') hM hph
              exact this.trans (self_map_id _)
            · obtain ⟨S, V, W⟩ := r
              refine bind_eq_map fun _ => ?_
              rfl
          · refine bind_map_left (LOpt.clearData_stored (o := o2)
              (Y := Y) (U := U) (D := D) (M := M) (Y' := o2.outSysRef) (U' := o2.cmdSysRef) (D' := o2.deltaCmdSysRef) (M' := o2.extInputMeas)) fun o3 => ?_
            rfl

end Mpc
