import Verif.Props.NlUnruly

/-
C135: user functions which ask the controller that calls them for its last result or its optimal sequence.
-/
namespace Mpc.Props
open Mpc Exec NlSpec
set_option linter.unusedSectionVars false

section
variable {d : Dims} {K : Type} {σ : Type} [Field K] [LinearOrder K] [IsStrictOrderedRing K]
variable {f : Insider d K σ} {s0 : σ} {dyn : Bool} {ops : List (NlCall d K × NlWork K)} {outs : List (NlOut K)}
  {es : List (NlTCall d K)} {m m' : NlMpc d K} {x0 u0 : Vec K} {cs : List (NlCallback K)} {oc : NlOutcome K} {w : NlWork K}
  {s s' : σ} {out : NlOut K} {e : NlEnding K} {l : List (UserCall d K × Bool)}

/-- C135: which calls are made and which reports each of them sees, according to how the `optimize` ends. -/
theorem c135_reads (h : UnAsked f s0 dyn ops outs es x0 u0 cs oc w m m' s s' out e l) :
    ∃ call, (∀ r call', out = .result r call' → call' = call) ∧
      CallsOf (ops.map Prod.fst) x0 call cs oc m'.o.result.is_feasible l e ∧
      ReadsOf (ops.map Prod.fst) x0 call cs f m.o.view s l s' e := unCalls h

theorem replays_self (f : Unruly d K σ) (s : σ) : Replays f s [] s := rfl

/-- C135: the result and the outputs which are seen are those from before the call, always; the states and inputs too, except by the
calls `l2` of the output function at the end, which see those of the answer `z` being reported. -/
theorem c135_seen (h : UnAsked f s0 dyn ops outs es x0 u0 cs oc w m m' s s' out e l) :
    ∃ l1 l2 s1 V, l = l1 ++ l2 ∧ Replays (f m.o.view) s l1 s1 ∧ Replays (f V) s1 l2 s' ∧
      V.result = m.o.result ∧ V.outputs = m.o.seqOutput ∧
      (l2 ≠ [] → ∃ z, (e = .outputThrows z ∨ ∃ v k, e = .returns z v k) ∧
        bares l2 <+: outCalls (last outputOf (ops.map Prod.fst)).isSome (statesOf (ops.map Prod.fst) x0 z) (inputsOf (ops.map Prod.fst) z) ∧
        (∀ (k : Fin (d.ph + 1)) (a : Fin d.nx), V.states.get k a = statesOf (ops.map Prod.fst) x0 z k a) ∧
        ∀ (k : Fin (d.ph + 1)) (b : Fin d.nu), V.inputs.get k b = inputsOf (ops.map Prod.fst) z k b) := by
  obtain ⟨call, -, -, hR⟩ := unCalls h
  cases e with
  | solverThrows => exact ⟨l, [], s', m.o.view, (List.append_nil l).symm, hR, rfl, rfl, rfl, fun h => absurd rfl h⟩
  | checkThrows z w => exact ⟨l, [], s', m.o.view, (List.append_nil l).symm, hR, rfl, rfl, rfl, fun h => absurd rfl h⟩
  | outputThrows z =>
    obtain ⟨l2, -, hp, l1, s1, V, q, b, h1, h2, h3, -, -, h4, h5, -, -, -, -, h6, h7⟩ := hR
    exact ⟨l1, l2, s1, V, h1, h2, h3, h4, h5, fun _ => ⟨z, .inl rfl, hp, h6, h7⟩⟩
  | returns z v k =>
    obtain ⟨l2, hp, l1, s1, V, q, b, h1, h2, h3, -, -, h4, h5, -, -, -, -, h6, h7⟩ := hR
    exact ⟨l1, l2, s1, V, h1, h2, h3, h4, h5, fun _ => ⟨z, .inr ⟨v, k, rfl⟩, by rw [hp], h6, h7⟩⟩

/-- C135: functions which ask for the last result only see the same throughout the `optimize`: that of the one before. -/
theorem c135_last_result (h : UnAsked f s0 dyn ops outs es x0 u0 cs oc w m m' s s' out e l)
    (hf : ∀ V V', V.result = V'.result → f V = f V') : Replays (f m.o.view) s l s' := by
  obtain ⟨l1, l2, s1, V, rfl, h1, h2, h3, -⟩ := c135_seen h
  rw [hf V m.o.view h3] at h2
  exact NlMpc.replays_append h1 h2

/-- C135: without an output function every call sees the reports from before. -/
theorem c135_no_output_partial (h : UnAsked f s0 dyn ops outs es x0 u0 cs oc w m m' s s' out e l)
    (hn : last outputOf (ops.map Prod.fst) = none) : Replays (f m.o.view) s l s' := by
  obtain ⟨l1, l2, s1, V, rfl, h1, h2, -, -, h3⟩ := c135_seen h
  have : l2 = [] := by
    by_contra hne
    obtain ⟨z, -, hp, -⟩ := h3 hne
    rw [hn] at hp
    have := List.prefix_nil.1 hp
    exact hne (List.map_eq_nil_iff.1 this)
  subst this
  obtain rfl : s1 = s' := h2
  rw [List.append_nil]
  exact h1

/-- C135: the search and the check see the reports from before; so does a function other than the output function, always. -/
theorem c135_others_partial (h : UnAsked f s0 dyn ops outs es x0 u0 cs oc w m m' s s' out e l)
    (hf : ∀ V V' s x u k, f V s (.out x u k) = f V' s (.out x u k)) : Replays (f m.o.view) s l s' := by
  obtain ⟨l1, l2, s1, V, rfl, h1, h2, -, -, h3⟩ := c135_seen h
  refine NlMpc.replays_append h1 ?_
  by_cases hne : l2 = []
  · subst hne; exact h2
  obtain ⟨z, -, hp, -⟩ := h3 hne
  have hout : ∀ q ∈ l2, ∃ x u k, q.1 = UserCall.out x u k := by
    intro q hq
    have hm : bare q.1 ∈ bares l2 := List.mem_map.2 ⟨q, hq, rfl⟩
    have hm := hp.subset hm
    unfold outCalls at hm
    split_ifs at hm
    · rw [List.mem_map] at hm
      obtain ⟨k, -, hk⟩ := hm
      rcases q with ⟨c, b⟩
      cases c with
      | out x u k => exact ⟨x, u, k, rfl⟩
      | _ => cases hk
    · cases hm
  clear h3 hp hne h1 h
  induction l2 generalizing s1 with
  | nil => exact h2
  | cons q l2 ih =>
    obtain ⟨k1, k2⟩ := h2
    obtain ⟨x, u, k, hq⟩ := hout q (by simp)
    have e : f V s1 q.1 = f m.o.view s1 q.1 := by rw [hq]; exact hf _ _ _ _ _ _
    refine ⟨by rw [← e]; exact k1, ?_⟩
    rw [← e]
    exact ih _ k2 (fun q hq => hout q (by simp [hq]))

/-- C135: after an `optimize` which returns, the last result is what it returned. -/
theorem c135_returned (h : UnAsked f s0 dyn ops outs es x0 u0 cs oc w m m' s s' out e l) {r : LResult K} {call : NlSolverCall K}
    (ho : out = .result r call) : m'.o.view.result = r := (unGiven h ho).2.1.symm

/-- C135: no other call changes the reports. -/
theorem c135_kept {op : NlCall d K} {o : NlOut K} (hn : isOptimize op = false) (hr : m.step op = .ok (m', o)) : m'.o.view = m.o.view := by
  obtain ⟨h1, h2, h3, h4⟩ := c58_persist hr hn
  unfold NlOpt.view
  rw [h1, h2, h3, h4]

end

/-- every call of an `optimize` sees the reports from before -/
def C135Claim (K : Type) [Field K] [LinearOrder K] [IsStrictOrderedRing K] : Prop :=
  ∀ (d : Dims) (f : Insider d K K) (s0 : K) (dyn : Bool) (ops : List (NlCall d K × NlWork K)) (outs : List (NlOut K))
    (es : List (NlTCall d K)) (x0 u0 : Vec K) (cs : List (NlCallback K)) (oc : NlOutcome K) (w : NlWork K) (m m' : NlMpc d K)
    (s s' : K) (out : NlOut K) (e : NlEnding K) (l : List (UserCall d K × Bool)),
    UnAsked f s0 dyn ops outs es x0 u0 cs oc w m m' s s' out e l → Replays (f m.o.view) s l s'

/-- functions which remember the first predicted state in the optimal sequence they have seen last -/
def watching : Insider dN ℚ ℚ := fun V _ c => (V.states.get 1 0, some (fnsC c))

theorem watching_seen {V : NlView ℚ} {l : List (UserCall dN ℚ × Bool)} : ∀ {s s' : ℚ}, Replays (watching V) s l s' →
    NoThrow l ∧ (l ≠ [] → s' = V.states.get 1 0) := by
  induction l with
  | nil => intro s s' _; exact ⟨fun q hq => (by cases hq), fun h => absurd rfl h⟩
  | cons q l ih =>
    rintro s s' ⟨h1, h2⟩
    obtain ⟨k1, k2⟩ := ih h2
    refine ⟨?_, fun _ => ?_⟩
    · intro c hc
      rcases List.mem_cons.1 hc with rfl | hc
      · exact h1
      · exact k1 c hc
    · by_cases hl : l = []
      · subst hl
        exact h2.symm
      · exact k2 hl

/-- C135: the output function, called for the report, sees a sequence which is neither the old nor the new one: the states and inputs are
those of the new answer, the outputs the old ones. -/
theorem c135_sequence_violated : ¬ C135Claim ℚ := by
  intro H
  obtain ⟨outs, es, m, -, h⟩ := opsC_run watching 0 noWork
  obtain ⟨m', s', out, e, l, h'⟩ := h (zN (m.o.view.states.get 1 0 + 1)) rfl
  obtain ⟨hn, hs⟩ := watching_seen (H _ _ _ _ _ _ _ _ _ _ _ _ _ _ _ _ _ _ _ h')
  have eops : (opsC.map fun op => (op, (noWork : NlWork ℚ))).map Prod.fst = opsC := by rw [List.map_map]; exact List.map_id _
  obtain ⟨call, -, hC, hR⟩ := c135_reads h'
  unfold ReadsOf at hR
  rw [eops] at hR
  rcases c134_no_throw h' hn with ⟨h1, -⟩ | ⟨z, v, k, t, h1, rfl⟩
  · cases h1
  obtain rfl : zN (m.o.view.states.get 1 0 + 1) = z := by cases h1; rfl
  obtain ⟨l2, hb, l1, s1, V, q, b, rfl, -, h3, -, -, -, -, -, -, -, -, h6, -⟩ := hR
  have hne : l2 ≠ [] := by
    rintro rfl
    cases hb
  have h4 := (watching_seen h3).2 hne
  have h5 := hs (by simp [hne])
  have h7 : V.states.get 1 0 = m.o.view.states.get 1 0 + 1 := by
    refine (h6 ⟨1, by decide⟩ ⟨0, by decide⟩).trans ?_
    simp [statesOf, NlSpec.codeStates, NlSpec.stScale, NlSpec.last, NlSpec.stScaleOf, opsC, zN, stateIx]
  rw [h4, h7] at h5
  linarith

/-- functions whose memory is the cost in the last result they have seen, and which throw if the last result is feasible -/
def costly : Insider dN ℚ (Ext ℚ) := fun V _ c => (V.result.cost, if V.result.is_feasible then none else some (fnsC c))

/-- Functions are called in such runs: here the check of the answer calls one at least, and all see the cost of the previous result. -/
example : ∃ outs es m m' s' out e l, UnAsked costly (.fin 7) false (opsC.map fun op => (op, noWork)) outs es (nvec 2 fun _ => 1)
    (nvec 1 fun _ => 0) [] (.answered (zN 1) (.fin 3) 1 false) noWork m m' (.fin 7) s' out e l ∧ Replays (costly m.o.view) (.fin 7) l s' ∧
    l ≠ [] ∧ s' = m.o.result.cost := by
  obtain ⟨outs, es, m, -, h⟩ := opsC_run costly (.fin 7) noWork
  obtain ⟨m', s', out, e, l, h'⟩ := h (zN 1) rfl
  have hr := c135_last_result h' (by intro V V' e; funext s c; simp [costly, e])
  have hne : l ≠ [] := by
    rintro rfl
    have eops : (opsC.map fun op => (op, (noWork : NlWork ℚ))).map Prod.fst = opsC := by rw [List.map_map]; exact List.map_id _
    obtain ⟨call, -, hC⟩ := c134_calls h'
    unfold CallsOf at hC
    rw [eops] at hC
    cases e with
    | solverThrows =>
      rcases hC with ⟨h1, -⟩ | ⟨h1, -⟩
      · cases h1
      · exact LastThrew.ne h1 rfl
    | checkThrows z w =>
      obtain ⟨-, h1, -⟩ := hC
      exact LastThrew.ne h1 rfl
    | outputThrows z =>
      obtain ⟨-, h1, -⟩ := hC
      exact LastThrew.ne h1 rfl
    | returns z v k =>
      obtain ⟨-, -, q, hq, hb⟩ := hC
      have hb := congrArg List.length hb
      rcases opsC_check hq with h4 | h4
      all_goals
        have h4 := congrArg List.length h4
        rw [List.length_append, List.length_append] at hb
        simp [bares] at hb h4
        omega
  refine ⟨outs, es, m, m', s', out, e, l, h', hr, hne, ?_⟩
  have : ∀ {l : List (UserCall dN ℚ × Bool)} {s s' : Ext ℚ}, Replays (costly m.o.view) s l s' → l ≠ [] → s' = m.o.result.cost := by
    intro l
    induction l with
    | nil => intro s s' _ h; exact absurd rfl h
    | cons q l ih =>
      rintro s s' ⟨h1, h2⟩ -
      by_cases hl : l = []
      · subst hl; exact h2.symm
      · exact ih h2 hl
  exact this hr hne

/-- a controller without output function, whose equality constraints are asked in the check -/
def opsQ : List (NlCall dN ℚ) :=
  [ .setObjectiveFunction (fun X _ U e => X 3 0 * X 3 0 + U 0 0 + e) true,
    .setStateSpaceFunction (fun x u _ a => if a = 0 then x 1 else u 0) 0 true,
    .setEqConFunction (fun X _ _ => X 3 1) (1 / 1000) true ]

/-- `c135_no_output_partial` applies to runs of this controller. -/
example : ∃ outs es m m' s' out e l, UnAsked watching 0 false (opsQ.map fun op => (op, noWork)) outs es (nvec 2 fun _ => 1)
    (nvec 1 fun _ => 0) [.obj (zN 1) true fun _ => 0] (.answered (zN 1) (.fin 3) 1 false) noWork m m' 0 s' out e l ∧
    last outputOf opsQ = none ∧ Replays (watching m.o.view) 0 l s' := by
  have eops : (opsQ.map fun op => (op, (noWork : NlWork ℚ))).map Prod.fst = opsQ := by rw [List.map_map]; exact List.map_id _
  have hfits : ∀ op ∈ opsQ.map fun op => (op, (noWork : NlWork ℚ)), CallFits dN op.1 := by
    simp [opsQ, NlSpec.CallFits]
  have hadm : ∀ op, Admissible dN false [] op → AdmissibleHistory dN false (opsQ ++ [op]) := by
    intro op h p o q e
    refine admFrom_split (pre := []) (l := opsQ ++ [op]) ?_ p o q e
    refine ⟨trivial, trivial, ⟨rfl, by decide⟩, ?_, trivial⟩
    cases op <;> exact h
  have hadm0 : AdmissibleHistory dN false ((opsQ.map fun op => (op, (noWork : NlWork ℚ))).map Prod.fst) := by
    rw [eops]
    exact adm_init (hadm (.setInputScale (nvec 1 fun _ => 1)) trivial)
  obtain ⟨m, outs, es, s, l0, hr, -, -⟩ := c134_total dN_ok (by decide) (by decide) watching 0 (fun _ => 0) false _ hfits hadm0
  obtain ⟨e, -⟩ := c134_setters (by simp [opsQ, isOptimize]) hr
  have h : UnRan watching 0 false (opsQ.map fun op => (op, noWork)) outs es m 0 := ⟨dN_ok, by decide, by decide, hfits, hadm0, _, l0, by rw [hr, e]⟩
  obtain ⟨m', s', out, e, l, h'⟩ := c134_answers (x0 := nvec 2 fun _ => 1) (u0 := nvec 1 fun _ => 0) (cs := [.obj (zN 1) true fun _ => 0])
    (oc := .answered (zN 1) (.fin 3) 1 false) (junk := fun _ => 0) h noWork
    ⟨rfl, rfl, (by intro c hc; rw [List.mem_singleton.1 hc]; rfl), rfl⟩ (by rw [eops]; exact hadm _ trivial)
  exact ⟨outs, es, m, m', s', out, e, l, h', rfl, c135_no_output_partial h' (by rw [eops]; rfl)⟩

end Mpc.Props
