import Mathlib.Algebra.Order.Field.Rat
import Verif.Proofs.NlLast
import Verif.Props.MoveBlocking

/-
Histories of API calls on the nonlinear controller, as the properties C43 to C50 and C58 to C61 quantify over them, and a
sample history which meets their hypotheses.
-/
namespace Mpc.Props
open Mpc Exec
set_option linter.unusedSectionVars false

section
variable {d : Dims} {K : Type} [Field K] [LinearOrder K] [IsStrictOrderedRing K]

/-- The calls `ops` on a new nonlinear controller (`dyn`: dimensions given at run time) return `outs` and leave it in state
`m`. The decision vector fits in the address space. -/
structure NlRan (d : Dims) (dyn : Bool) (ops : List (NlCall d K)) (outs : List (NlOut K)) (m : NlMpc d K) : Prop where
  hor : HorizonsOk d
  mem : d.ph * d.nx + d.nu * d.ch + 1 ≤ 2 ^ 64
  fits : ∀ op ∈ ops, NlSpec.CallFits d op
  ran : ∃ junk : Nat → K, NlMpc.run d junk dyn ops = .ok (m, outs)

/-- After that history, `optimize(x0, u0)` with callbacks `cs` and outcome `oc` of the solver returns `r`; `call` is what the
solver was given. -/
structure NlAsked (d : Dims) (dyn : Bool) (ops : List (NlCall d K)) (outs : List (NlOut K)) (x0 u0 : Vec K)
    (cs : List (NlCallback K)) (oc : NlOutcome K) (m m' : NlMpc d K) (r : LResult K) (call : NlSolverCall K) : Prop
    extends NlRan d dyn ops outs m where
  ask : ∃ junk : Nat → K, NlSpec.CallFits d (.optimize x0 u0 cs oc junk) ∧
    m.step (.optimize x0 u0 cs oc junk) = .ok (m', .result r call)

variable {dyn : Bool} {ops : List (NlCall d K)} {outs : List (NlOut K)} {m m' : NlMpc d K} {x0 u0 : Vec K}
  {cs : List (NlCallback K)} {oc : NlOutcome K} {r : LResult K} {call : NlSolverCall K}

theorem NlRan.agrees (h : NlRan d dyn ops outs m) :
    m.Agrees (NlCtl.after d ops outs) ∧ m.dynamic = dyn ∧ outs.length = ops.length := by
  obtain ⟨junk, hr⟩ := h.ran
  exact NlMpc.run_agrees h.hor.ch_pos h.hor.ch_le h.hor.ph_int h.mem h.fits hr

theorem NlRan.len (h : NlRan d dyn ops outs m) : outs.length = ops.length := h.agrees.2.2

theorem NlAsked.known (h : NlAsked d dyn ops outs x0 u0 cs oc m m' r call) :
    r = m'.o.result ∧ m'.Agrees ((NlCtl.after d ops outs).solved x0.get u0.get oc) ∧
      NlMpc.Given (NlCtl.after d ops outs) x0.get u0.get call ∧
      NlMpc.Reported (NlCtl.after d ops outs) m.o.result x0.get r m'.o oc := by
  obtain ⟨junk, hf, hr⟩ := h.ask
  obtain ⟨h1, -, -⟩ := h.toNlRan.agrees
  obtain ⟨r', call', e, h2, -, h3, h4, h5⟩ := NlMpc.optimize_ok h1 h.hor.ph_int hf hr
  cases e
  exact ⟨h2, h3, h4, h5⟩

/-- one more call -/
theorem NlRan.snoc (h : NlRan d dyn ops outs m) {op : NlCall d K} {o : NlOut K} (hf : NlSpec.CallFits d op)
    (hs : m.step op = .ok (m', o)) : NlRan d dyn (ops ++ [op]) (outs ++ [o]) m' := by
  obtain ⟨junk, hr⟩ := h.ran
  refine ⟨h.hor, h.mem, ?_, junk, ?_⟩
  · intro q hq
    rcases List.mem_append.1 hq with hq | hq
    · exact h.fits q hq
    · obtain rfl : q = op := by simpa using hq
      exact hf
  · rw [NlMpc.run_snoc, hr, ok_bind]
    dsimp only
    rw [hs, ok_bind]
    rfl

/-- a history which ends in a given call -/
theorem NlRan.unsnoc {op : NlCall d K} {o : NlOut K} (h : NlRan d dyn (ops ++ [op]) (outs ++ [o]) m') :
    ∃ m, NlRan d dyn ops outs m ∧ NlSpec.CallFits d op ∧ m.step op = .ok (m', o) := by
  obtain ⟨junk, hr⟩ := h.ran
  rw [NlMpc.run_snoc] at hr
  obtain ⟨q, hq, hr⟩ := bind_eq_ok.1 hr
  obtain ⟨s, hs, hr⟩ := bind_eq_ok.1 hr
  obtain ⟨m, outs'⟩ := q
  obtain ⟨m'', o'⟩ := s
  have e := Except.ok.inj hr
  obtain ⟨rfl, e2⟩ : m'' = m' ∧ outs' ++ [o'] = outs ++ [o] := ⟨congrArg Prod.fst e, congrArg Prod.snd e⟩
  obtain ⟨rfl, e3⟩ := List.append_inj' e2 rfl
  obtain rfl : o' = o := by simpa using e3
  exact ⟨m, ⟨h.hor, h.mem, fun q hq => h.fits q (by simp [hq]), junk, hq⟩, h.fits op (by simp), hs⟩

/-- admissibility, call by call -/
def AdmFrom (d : Dims) (dyn : Bool) : List (NlCall d K) → List (NlCall d K) → Prop
  | _, [] => True
  | pre, op :: l => NlSpec.Admissible d dyn pre op ∧ AdmFrom d dyn (pre ++ [op]) l

theorem admFrom_split {l : List (NlCall d K)} : ∀ {pre : List (NlCall d K)}, AdmFrom d dyn pre l →
    ∀ p op q, l = p ++ op :: q → NlSpec.Admissible d dyn (pre ++ p) op := by
  induction l with
  | nil => intro pre _ p op q e; simp at e
  | cons a l ih =>
    intro pre h p op q e
    cases p with
    | nil =>
      rw [List.nil_append] at e
      cases e
      rw [List.append_nil]
      exact h.1
    | cons b p =>
      rw [List.cons_append] at e
      cases e
      have := ih h.2 p op q rfl
      rwa [List.append_assoc, List.singleton_append] at this

/-- Every well-formed history runs, and its last `optimize` answers. -/
theorem nlAsked_exists (hd : HorizonsOk d) (hp : d.ph < 2 ^ 30) (hm : d.ph * d.nx + d.nu * d.ch + 1 ≤ 2 ^ 64)
    (junk : Nat → K) (hf : ∀ op ∈ ops ++ [.optimize x0 u0 cs oc junk], NlSpec.CallFits d op)
    (ha : NlSpec.AdmissibleHistory d dyn (ops ++ [.optimize x0 u0 cs oc junk])) :
    ∃ outs m m' r call, NlAsked d dyn ops outs x0 u0 cs oc m m' r call := by
  obtain ⟨⟨m', outs⟩, h⟩ := NlMpc.run_total hd.ch_pos hd.ch_le hp hm junk dyn _ hf ha
  have hr : NlRan d dyn _ outs m' := ⟨hd, hm, hf, junk, h⟩
  have hl := hr.len
  rcases List.eq_nil_or_concat outs with rfl | ⟨outs', o, rfl⟩
  · simp at hl
  · rw [List.concat_eq_append] at hr
    obtain ⟨m, h1, h2, h3⟩ := hr.unsnoc
    obtain ⟨h4, -, -⟩ := h1.agrees
    obtain ⟨r, call, rfl, -⟩ := NlMpc.optimize_ok h4 hd.ph_int h2 h3
    exact ⟨outs', m, m', r, call, h1, junk, h2, h3⟩

/-- the same for histories without an `optimize` at the end -/
theorem nlRan_exists (hd : HorizonsOk d) (hp : d.ph < 2 ^ 30) (hm : d.ph * d.nx + d.nu * d.ch + 1 ≤ 2 ^ 64)
    (junk : Nat → K) (hf : ∀ op ∈ ops, NlSpec.CallFits d op) (ha : NlSpec.AdmissibleHistory d dyn ops) :
    ∃ outs m, NlRan d dyn ops outs m := by
  obtain ⟨⟨m', outs⟩, h⟩ := NlMpc.run_total hd.ch_pos hd.ch_le hp hm junk dyn _ hf ha
  exact ⟨outs, m', hd, hm, hf, junk, h⟩

/-- a further `optimize` without callbacks always runs (an equality function needs at least one equality constraint) -/
theorem NlRan.asks (h : NlRan d dyn ops outs m) (hx : x0.size = d.nx) (hu : u0.size = d.nu)
    (ho : ∀ z v c t, oc = .answered z v c t → z.size = d.ph * d.nx + d.nu * d.ch + 1) (he : 0 < d.eq) :
    ∃ m' r call, NlAsked d dyn ops outs x0 u0 [] oc m m' r call := by
  obtain ⟨h1, -, -⟩ := h.agrees
  have hf : NlSpec.CallFits d (.optimize x0 u0 [] oc (fun _ => 0)) := by
    refine ⟨hx, hu, by simp, ?_⟩
    cases oc with
    | threw => trivial
    | answered z v c t => exact ho z v c t rfl
  obtain ⟨⟨m', o⟩, hr⟩ := NlMpc.optimize_total h1 h.hor.ph_int hf (NlMpc.after_bound _ _) (fun _ => he)
  obtain ⟨r, call, rfl, -⟩ := NlMpc.optimize_ok h1 h.hor.ph_int hf hr
  exact ⟨m', r, call, h, fun _ => 0, hf, hr⟩

end

/-! ### a sample: two states, one input, horizon 3, control horizon 2, one constraint of each kind -/

abbrev dN : Dims := { nx := 2, nu := 1, ndu := 0, ny := 1, ph := 3, ch := 2, ineq := 1, eq := 1 }

theorem dN_ok : HorizonsOk dN := ⟨by decide, by decide, by decide⟩

/-- vector of size `n` -/
def nvec (n : Nat) (f : Nat → ℚ) : Vec ℚ := ⟨n, f⟩

/-- bounds of size `n` -/
def bvec (n : Nat) (q : ℚ) : Vec (Ext ℚ) := ⟨n, fun _ => .fin q⟩

/-- a solver answer for `dN`: entry `p` is `p + c` -/
def zN (c : ℚ) : Vec ℚ := ⟨9, fun p => p + c⟩

/-- functions, scaling, bounds, parameters, and two calls: the first is answered, the second fails -/
def opsN : List (NlCall dN ℚ) :=
  [ .setDiscretizationSamplingTime (1 / 10),
    .setObjectiveFunction (fun X _ U e => X 3 0 * X 3 0 + U 0 0 + e) true,
    .setStateSpaceFunction (fun x u _ a => if a = 0 then x 1 else u 0) 0 true,
    .setOutputFunction (fun _ x _ _ _ => x 0),
    .setIneqConFunction (fun _ Y _ _ _ => Y 1 0 - 5) (1 / 100) true,
    .setEqConFunction (fun X _ _ => X 3 1) (1 / 1000) true,
    .setInputScale (nvec 1 fun _ => 2),
    .setStateBoundsSlice (bvec 2 (-9)) (bvec 2 9) ⟨0, 2⟩,
    .setInputBounds ⟨1, 2, fun _ j => .fin (-(j : ℚ))⟩ ⟨1, 2, fun _ _ => .posInf⟩,
    .setOptimizerParameters (.nonlinear { enable_warm_start := true, time_limit := 2 }),
    .optimize (nvec 2 fun a => a) (nvec 1 fun _ => 4) [.obj (zN 0) true (fun _ => 5), .con 0 (zN 1) true (fun _ => 5), .con 1 (zN 2) false (fun _ => 5)]
      (.answered (zN 3) (.fin 7) 1 false) (fun _ => 0),
    .optimize (nvec 2 fun a => a + 1) (nvec 1 fun _ => 6) [] .threw (fun _ => 0) ]

theorem opsN_fits : ∀ op ∈ opsN, NlSpec.CallFits dN op := by
  intro op h
  unfold opsN at h
  simp only [List.mem_cons, List.not_mem_nil, or_false] at h
  rcases h with rfl | rfl | rfl | rfl | rfl | rfl | rfl | rfl | rfl | rfl | rfl | rfl
  all_goals simp [NlSpec.CallFits, NlSpec.CallbackFits, nvec, bvec, zN, HorizonSlice.Int32]

theorem sampleN_asked (x0 u0 : ℚ) (oc : NlOutcome ℚ)
    (ho : ∀ z v c t, oc = .answered z v c t → z.size = 9) :
    ∃ outs m m' r call, NlAsked dN false opsN outs (nvec 2 fun _ => x0) (nvec 1 fun _ => u0) [.con 2 (zN 5) true (fun _ => 0)] oc
      m m' r call := by
  refine nlAsked_exists dN_ok (by decide) (by decide) (fun _ => 0) ?_ ?_
  · intro op h
    rcases List.mem_append.1 h with h | h
    · exact opsN_fits op h
    · obtain rfl := List.mem_singleton.1 h
      refine ⟨rfl, rfl, ?_, ?_⟩
      · intro c hc
        obtain rfl := List.mem_singleton.1 hc
        rfl
      · cases oc with
        | threw => trivial
        | answered z v c t => exact ho z v c t rfl
  · intro p op q e
    have := admFrom_split (d := dN) (dyn := false) (pre := []) (l := opsN ++ [.optimize (nvec 2 fun _ => x0) (nvec 1 fun _ => u0)
      [.con 2 (zN 5) true (fun _ => 0)] oc (fun _ => 0)]) ?_ p op q e
    · exact this
    · unfold opsN
      simp only [List.cons_append, List.nil_append, AdmFrom, NlSpec.Admissible, NlSpec.SliceUsable, true_and, and_true,
        or_false]
      exact ⟨by decide, .inr (by decide), _, rfl⟩

end Mpc.Props
