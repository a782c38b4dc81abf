import Verif.Proofs.NlNested
import Verif.Props.NlUnruly
import Verif.Props.Threads

/-
C137: user functions of a nonlinear controller which use other controllers.
-/
namespace Mpc.Props
open Mpc Exec NlSpec
open Mpc.Spec (about returned NoCopies Sized SliceNonneg Configured)
set_option linter.unusedSectionVars false

section
variable {d : Dims} {K : Type} {k : Kind} {τ σ ρ : Type} [Field K] [LinearOrder K] [IsStrictOrderedRing K]

variable {f : Nested d K k τ} {w0 : World k} {t0 : τ} {dyn : Bool} {ops : List (NlCall d K × NlWork K)} {outs : List (NlOut K)}
  {es : List (NlTCall d K)} {m m' : NlMpc d K} {x0 u0 : Vec K} {cs : List (NlCallback K)} {oc : NlOutcome K} {w : NlWork K}
  {out : NlOut K} {e : NlEnding K} {l : List (UserCall d K × Bool)} {junk : Nat → K} {i i' : Inner k τ}

/-- C137: over a whole history, the other controllers are used as the code of the functions says, one call after the other, and in no
other way. -/
theorem c137_uses {r : Exec (NlMpc d K × List (NlOut K) × List (NlTCall d K))}
    (h : NlMpc.runW f.insider (.ok ⟨w0, t0, []⟩) junk dyn ops = (r, .ok i, l)) : Did f w0 t0 l i.past i.world i.own := by
  have := NlMpc.runW_links (went (f := f)) junk dyn ops (.ok ⟨w0, t0, []⟩)
  rw [h] at this
  obtain ⟨i0, p, e1, h1, h2⟩ := this i rfl
  cases e1
  rw [h1]
  exact h2

/-- C137: likewise within one `optimize`. -/
theorem c137_optimize (h : UnAsked f.insider (.ok ⟨w0, t0, []⟩) dyn ops outs es x0 u0 cs oc w m m' (.ok i) (.ok i') out e l) :
    ∃ p, i'.past = i.past ++ p ∧ Did f i.world i.own l p i'.world i'.own := by
  obtain ⟨junk, -, hr⟩ := h.ask
  have := NlMpc.optimizeW_links (went (f := f)) w m x0 u0 cs oc junk (.ok i)
  rw [hr] at this
  obtain ⟨i0, p, e1, h1, h2⟩ := this i' rfl
  cases e1
  exact ⟨p, h1, h2⟩

/-- C137: what is done with the other controllers is a program like any other: the steps, in their order, lead to the controllers there
are, and return what the functions were returned. -/
theorem c137_program (h : UnRan f.insider (.ok ⟨w0, t0, []⟩) dyn ops outs es m (.ok i)) :
    w0.run (i.past.map Prod.fst) = .ok (i.world, i.past.map Prod.snd) := by
  obtain ⟨junk, l, hr⟩ := h.ran
  exact did_run (c137_uses hr)

/-- C137: everything proved about a linear controller holds of one which is used in user functions, whatever the functions do with it
and with others, and whatever was done before. -/
theorem c137_linear {f : Nested d K (linearKind K) τ} {w0 : World (linearKind K)} {i : Inner (linearKind K) τ}
    {before : List (WOp (linearKind K))} {outs0 : List (Option (linearKind K).Out)} (h0 : (World.empty (linearKind K)).run before = .ok (w0, outs0))
    (h : UnRan f.insider (.ok ⟨w0, t0, []⟩) dyn ops outs es m (.ok i)) {j : Nat} {d' : Dims} {uninit : Nat → Nat → K} {junk : Nat → Nat}
    {calls : List (LOp K)}
    (hi : about j (before ++ i.past.map Prod.fst) = .create j (d', uninit, junk) :: calls.map fun op => .call j op)
    (hd : d'.Valid) (hs : ∀ op ∈ calls, Sized d' op ∧ SliceNonneg op) :
    ∃ m outs', Configured d' calls outs' m ∧
      returned j (before ++ i.past.map Prod.fst) (outs0 ++ i.past.map Prod.snd) = none :: outs'.map some ∧
      i.world.view j = some ((m.d, m.b), m.o) :=
  c74_linear_history (World.run_append h0 (c137_program h)) hi hd hs

/-- C137, partial: likewise for a nonlinear controller inside, if none is copied. (Missing: programs with copies, as in C74.) -/
theorem c137_nonlinear_partial {d' : Dims} {f : Nested d K (nonlinearKind d' K) τ} {w0 : World (nonlinearKind d' K)}
    {i : Inner (nonlinearKind d' K) τ} {before : List (WOp (nonlinearKind d' K))} {outs0 : List (Option (nonlinearKind d' K).Out)}
    (h0 : (World.empty (nonlinearKind d' K)).run before = .ok (w0, outs0))
    (h : UnRan f.insider (.ok ⟨w0, t0, []⟩) dyn ops outs es m (.ok i)) (hn : NoCopies (before ++ i.past.map Prod.fst)) {j : Nat}
    {junk : Nat → K} {dyn' : Bool} {calls : List (NlCall d' K)}
    (hi : about j (before ++ i.past.map Prod.fst) = .create j (junk, dyn') :: calls.map fun op => .call j op)
    (hd : HorizonsOk d') (hm : d'.ph * d'.nx + d'.nu * d'.ch + 1 ≤ 2 ^ 64) (hs : ∀ op ∈ calls, CallFits d' op) :
    ∃ m outs', NlRan d' dyn' calls outs' m ∧
      returned j (before ++ i.past.map Prod.fst) (outs0 ++ i.past.map Prod.snd) = none :: outs'.map some ∧
      i.world.view j = some ((), m) :=
  c74_nonlinear_partial hn (World.run_append h0 (c137_program h)) hi hd hm hs

/-- C137: the controller depends on the answers of its functions, and on nothing else they do: functions which answer alike, whatever
they remember and use, give the same controller, results and calls. -/
theorem c137_answers {f : Insider d K σ} {g : Insider d K ρ} {R : σ → ρ → Prop}
    (hR : ∀ V s t c, R s t → (f V s c).2 = (g V t c).2 ∧ R (f V s c).1 (g V t c).1) {s0 : σ} {t0 : ρ} (h0 : R s0 t0) (junk : Nat → K)
    (dyn : Bool) (ops : List (NlCall d K × NlWork K)) :
    (NlMpc.runW f s0 junk dyn ops).1 = (NlMpc.runW g t0 junk dyn ops).1 ∧
      (NlMpc.runW f s0 junk dyn ops).2.2 = (NlMpc.runW g t0 junk dyn ops).2.2 ∧
      R (NlMpc.runW f s0 junk dyn ops).2.1 (NlMpc.runW g t0 junk dyn ops).2.1 := by
  obtain ⟨h1, h2, h3⟩ := NlMpc.runW_alike hR junk dyn ops h0
  exact ⟨h1, h3, h2⟩

theorem _root_.Mpc.NlSpec.Sound.links {I : World k → τ → Prop} (hf : Sound f I) :
    NlMpc.Links f.insider (fun s _ s' => (∃ i, s = .ok i ∧ I i.world i.own) → ∃ i, s' = .ok i ∧ I i.world i.own) :=
  ⟨fun s h => h, fun h h' q => h' (h q), by
    rintro V s c ⟨i, rfl, h⟩
    obtain ⟨r, w', l, e1, e2⟩ := hf V i.world i.own c h
    refine ⟨⟨w', r.1, i.past ++ l⟩, ?_, e2⟩
    unfold Nested.insider
    dsimp only
    rw [Routine.exec_goes.2 e1]⟩

/-- C137: likewise for one `optimize`. -/
theorem c137_sound_optimize {I : World k → τ → Prop} {s' : Exec (Inner k τ)} (hf : Sound f I) (hI : I i.world i.own)
    (h : UnAsked f.insider (.ok ⟨w0, t0, []⟩) dyn ops outs es x0 u0 cs oc w m m' (.ok i) s' out e l) : ∃ i', s' = .ok i' ∧ I i'.world i'.own := by
  obtain ⟨junk, -, hr⟩ := h.ask
  have := NlMpc.optimizeW_links hf.links w m x0 u0 cs oc junk (.ok i)
  rw [hr] at this
  exact this ⟨i, rfl, hI⟩

/-- C137: if the code of the functions never faults, no fault comes from the controllers calling each other: the history runs to its end,
and what holds of the inner controllers as long as the functions use them holds then. -/
theorem c137_sound {I : World k → τ → Prop} (hf : Sound f I) (hI : I w0 t0) (hd : HorizonsOk d) (hp : d.ph < 2 ^ 30)
    (hm : d.ph * d.nx + d.nu * d.ch + 1 ≤ 2 ^ 64) (junk : Nat → K) (dyn : Bool) (ops : List (NlCall d K × NlWork K))
    (hs : ∀ op ∈ ops, CallFits d op.1) (ha : AdmissibleHistory d dyn (ops.map Prod.fst)) :
    ∃ m outs es i, UnRan f.insider (.ok ⟨w0, t0, []⟩) dyn ops outs es m (.ok i) ∧ I i.world i.own := by
  obtain ⟨m, outs, es, s, l, e, -, -⟩ := c134_total hd hp hm f.insider (.ok ⟨w0, t0, []⟩) junk dyn ops hs ha
  have h1 := NlMpc.runW_links hf.links junk dyn ops (.ok ⟨w0, t0, []⟩) ⟨_, rfl, hI⟩
  rw [e] at h1
  obtain ⟨i, rfl, h2⟩ := h1
  exact ⟨m, outs, es, i, ⟨hd, hp, hm, hs, ha, junk, l, e⟩, h2⟩

/-- C137: if what the functions ask of inner controllers gives the right answers, the outer controller is, returns and calls what it
would if the answers were computed without them. -/
theorem c137_transparent {I : World k → τ → Prop} {F : NlView K → ∀ c : UserCall d K, Option c.Ans} (hf : Serves f I F) (hI : I w0 t0)
    (junk : Nat → K) (dyn : Bool) (ops : List (NlCall d K × NlWork K)) :
    (NlMpc.runW f.insider (.ok ⟨w0, t0, []⟩) junk dyn ops).1 = (NlMpc.runW (fun V (s : Unit) c => (s, F V c)) () junk dyn ops).1 ∧
      (NlMpc.runW f.insider (.ok ⟨w0, t0, []⟩) junk dyn ops).2.2 = (NlMpc.runW (fun V (s : Unit) c => (s, F V c)) () junk dyn ops).2.2 := by
  obtain ⟨h1, h2, -⟩ := c137_answers (f := f.insider) (g := fun V (s : Unit) c => (s, F V c))
    (R := fun s _ => ∃ i, s = .ok i ∧ I i.world i.own) (by
      rintro V s t c ⟨i, rfl, h⟩
      obtain ⟨t', w', l, e1, e2⟩ := hf V i.world i.own c h
      unfold Nested.insider
      dsimp only
      rw [Routine.exec_goes.2 e1]
      exact ⟨rfl, _, rfl, e2⟩) (s0 := .ok ⟨w0, t0, []⟩) (t0 := ()) ⟨_, rfl, hI⟩ junk dyn ops
  exact ⟨h1, h2⟩

end

/-! ### an example: the first call of a user function constructs, configures and asks a linear controller -/

/-- one step after the other, whatever they return -/
def Routine.all {k : Kind} {β : Type} (b : β) : List (WOp k) → Routine k β
  | [] => .done b
  | op :: ops => .act op fun _ => Routine.all b ops

theorem Routine.all_goes {k : Kind} {β : Type} {b : β} : ∀ {ops : List (WOp k)} {w w' : World k} {outs}, w.run ops = .ok (w', outs) →
    ∃ l, Goes (Routine.all b ops) w l b w' ∧ l.map Prod.fst = ops := by
  intro ops
  induction ops with
  | nil => intro w w' outs h; cases h; exact ⟨[], ⟨rfl, rfl, rfl⟩, rfl⟩
  | cons op ops ih =>
    intro w w' outs h
    simp only [World.run, bind_eq_ok] at h
    obtain ⟨r, h1, s, h2, h3⟩ := h
    cases h3
    obtain ⟨l, h4, h5⟩ := ih h2
    exact ⟨(op, r.2) :: l, ⟨r.2, r.1, l, rfl, h1, h4⟩, by rw [List.map_cons, h5]⟩

/-- functions which do what is still to be done with the other controllers when they are called, and answer -/
def helped {k : Kind} : Nested dN ℚ k (List (WOp k)) := fun _ todo c => Routine.all ([], some (fnsC c)) todo

theorem asked_some {σ : Type} {f : Insider dN ℚ σ} {s0 s s' : σ} {outs es} {m m' : NlMpc dN ℚ} {out e l}
    (h' : UnAsked f s0 false (opsC.map fun op => (op, (noWork : NlWork ℚ))) outs es (nvec 2 fun _ => 1)
      (nvec 1 fun _ => 0) [] (.answered (zN 1) (.fin 3) 1 false) noWork m m' s s' out e l) : l ≠ [] := by
  rintro rfl
  have eops : (opsC.map fun op => (op, (noWork : NlWork ℚ))).map Prod.fst = opsC := by rw [List.map_map]; exact List.map_id _
  obtain ⟨call, -, hC⟩ := c134_calls h'
  unfold CallsOf at hC
  rw [eops] at hC
  cases e with
  | solverThrows =>
    rcases hC with ⟨h1, -⟩ | ⟨h1, -⟩
    · cases h1
    · exact LastThrew.ne h1 rfl
  | checkThrows z w =>
    obtain ⟨-, h1, -⟩ := hC
    exact LastThrew.ne h1 rfl
  | outputThrows z =>
    obtain ⟨-, h1, -⟩ := hC
    exact LastThrew.ne h1 rfl
  | returns z v k =>
    obtain ⟨-, -, q, hq, hb⟩ := hC
    have hb := congrArg List.length hb
    rcases opsC_check hq with h4 | h4
    all_goals
      have h4 := congrArg List.length h4
      rw [List.length_append, List.length_append] at hb
      simp [bares] at hb h4
      omega

/-- an `optimize` has been made after a history: the history is now longer -/
theorem UnAsked.ranNow {d : Dims} {K σ : Type} [Field K] [LinearOrder K] [IsStrictOrderedRing K] {f : Insider d K σ} {s0 s s' : σ} {dyn : Bool}
    {ops : List (NlCall d K × NlWork K)} {outs es x0 u0 cs oc w} {m m' : NlMpc d K} {out e l}
    (h : UnAsked f s0 dyn ops outs es x0 u0 cs oc w m m' s s' out e l)
    (ha : ∀ junk, AdmissibleHistory d dyn (ops.map Prod.fst ++ [.optimize x0 u0 cs oc junk])) :
    ∃ junk es', UnRan f s0 dyn (ops ++ [(.optimize x0 u0 cs oc junk, w)]) (outs ++ [out]) es' m' s' := by
  obtain ⟨junk, hf, hr⟩ := h.ask
  obtain ⟨j0, l0, h0⟩ := h.ran
  refine ⟨junk, es ++ [.optimize x0 u0 [] e junk], h.hor, h.small, h.mem, ?_, ?_, j0, l0 ++ l, ?_⟩
  · intro op ho
    rcases List.mem_append.1 ho with ho | ho
    · exact h.fits op ho
    · rw [List.mem_singleton.1 ho]; exact hf
  · rw [List.map_append]
    exact ha junk
  · rw [NlMpc.runW_snoc f _ h0]
    unfold NlMpc.stepW
    dsimp only
    rw [hr]
    rfl

/-- a linear controller alone: construction, configuration, one `optimize` -/
theorem linear_alone : ∃ (a : (linearKind ℚ).Args) (calls : List (LOp ℚ)) (w : World (linearKind ℚ)) (outs : List (Option (linearKind ℚ).Out)),
    a.1.Valid ∧ (∃ x0 u0 oc, LOp.optimize x0 u0 oc ∈ calls) ∧ (∀ op ∈ calls, Sized a.1 op ∧ SliceNonneg op) ∧
    (World.empty (linearKind ℚ)).run (.create 0 a :: calls.map fun op => .call 0 op) = .ok (w, outs) := by
  obtain ⟨m, m', r, call, ha⟩ := sample_asked 1 0 none
  obtain ⟨uninit, junk, m0, h0, e0⟩ := ha.built
  have hb := linearKind_build (a := (sampleDims, uninit, junk)).2 ⟨m0, h0, rfl⟩
  obtain ⟨outs, hex⟩ := exec_last ha.optimized e0
  obtain ⟨z, hz⟩ := linear_single hb hex 0
  refine ⟨_, _, z.1, z.2, ha.valid, ⟨_, _, _, List.mem_append_right _ List.mem_cons_self⟩, fun op ho => ?_, hz⟩
  rcases List.mem_append.1 ho with ho | ho
  · exact ha.sized op ho
  · rw [List.mem_singleton.1 ho]
    exact ⟨⟨ha.x0Size, ha.u0Size⟩, fun s e => (by cases e)⟩

/-- The first user function called does `todo`, which runs without fault, and all answer as `fnsC`: the outer controller is configured and
asked. -/
theorem helped_runs {k : Kind} {todo : List (WOp k)} {w1 : World k} {outs1} (hrun : (World.empty k).run todo = .ok (w1, outs1)) :
    ∃ (outs : _) (es : _) (m : NlMpc dN ℚ) (i : Inner k (List (WOp k))) (I : World k → List (WOp k) → Prop) (junk : Nat → ℚ),
    Serves helped I (fun _ c => some (fnsC c)) ∧ I (World.empty _) todo ∧
    UnRan helped.insider (.ok ⟨World.empty _, todo, []⟩) false
      ((opsC.map fun op => (op, noWork)) ++ [(.optimize (nvec 2 fun _ => 1) (nvec 1 fun _ => 0) [] (.answered (zN 1) (.fin 3) 1 false) junk, noWork)])
      outs es m (.ok i) ∧ i.past.map Prod.fst = todo := by
  have hS : Serves helped (fun w t => (w = World.empty _ ∧ t = todo) ∨ t = []) (fun _ c => some (fnsC c)) := by
    rintro V w t c (⟨rfl, rfl⟩ | rfl)
    · obtain ⟨l, h1, -⟩ := Routine.all_goes (b := (([] : List (WOp k)), some (fnsC c))) hrun
      exact ⟨[], _, l, h1, .inr rfl⟩
    · exact ⟨[], w, [], ⟨rfl, rfl, rfl⟩, .inr rfl⟩
  have hS' : Sound helped (fun w t => (w = World.empty _ ∧ t = todo) ∨ t = []) := fun V w t c h => by
    obtain ⟨t', w', l, h1, h2⟩ := hS V w t c h
    exact ⟨_, w', l, h1, h2⟩
  obtain ⟨outs, es, m, -, h⟩ := opsC_run helped.insider (.ok ⟨World.empty _, todo, []⟩) noWork
  obtain ⟨m', s', out, e, l, h'⟩ := h (zN 1) rfl
  obtain ⟨i, rfl, -⟩ := c137_sound_optimize hS' (.inl ⟨rfl, rfl⟩) h'
  have eops : (opsC.map fun op => (op, (noWork : NlWork ℚ))).map Prod.fst = opsC := by rw [List.map_map]; exact List.map_id _
  obtain ⟨junk, es', hr⟩ := h'.ranNow (fun junk => by rw [eops]; exact opsC_adm (op := .optimize _ _ _ _ _) trivial)
  refine ⟨_, es', m', i, _, junk, hS, .inl ⟨rfl, rfl⟩, hr, ?_⟩
  obtain ⟨p, hp, hD⟩ := c137_optimize h'
  rw [hp, List.nil_append]
  have hne := asked_some h'
  -- later calls find nothing left to do
  have idle : ∀ {l : List (UserCall dN ℚ × Bool)} {w w' : World k} {t' p}, Did helped w [] l p w' t' → p = [] := by
    intro l
    induction l with
    | nil => rintro w w' t' p ⟨rfl, -⟩; rfl
    | cons q l ih =>
      rintro w w' t' p ⟨V, r, w1, p1, p2, h1, -, rfl, h3⟩
      obtain ⟨rfl, rfl, rfl⟩ := h1
      rw [ih h3]
      rfl
  cases l with
  | nil => exact absurd rfl hne
  | cons q l =>
    obtain ⟨V, r, w2, p1, p2, h1, -, rfl, h3⟩ := hD
    obtain ⟨l0, h4, h5⟩ := Routine.all_goes (b := (([] : List (WOp k)), some (fnsC q.1))) hrun
    change Goes (Routine.all _ todo) _ _ _ _ at h1
    have h6 := (Routine.exec_goes.2 h4).symm.trans (Routine.exec_goes.2 h1)
    cases h6
    rw [idle h3, List.append_nil]
    exact h5

/-- The cost, constraint and output functions of this controller construct, configure and ask a linear controller before they answer: the
`optimize` of the outer controller contains one of the inner, and reports what it would without. -/
example : ∃ (todo : List (WOp (linearKind ℚ))) (outs : _) (es : _) (m : NlMpc dN ℚ) (i : Inner (linearKind ℚ) (List (WOp (linearKind ℚ))))
    (I : World (linearKind ℚ) → List (WOp (linearKind ℚ)) → Prop) (junk : Nat → ℚ),
    (∃ x0 u0 oc, WOp.call 0 (LOp.optimize x0 u0 oc) ∈ todo) ∧ Serves helped I (fun _ c => some (fnsC c)) ∧ I (World.empty _) todo ∧
    UnRan helped.insider (.ok ⟨World.empty _, todo, []⟩) false
      ((opsC.map fun op => (op, noWork)) ++ [(.optimize (nvec 2 fun _ => 1) (nvec 1 fun _ => 0) [] (.answered (zN 1) (.fin 3) 1 false) junk, noWork)])
      outs es m (.ok i) ∧ i.past.map Prod.fst = todo ∧
    ∃ d' calls m1 outs1, Configured d' calls outs1 m1 ∧ (∃ x0 u0 oc, LOp.optimize x0 u0 oc ∈ calls) ∧
      returned 0 todo (i.past.map Prod.snd) = none :: outs1.map some ∧ i.world.view 0 = some ((m1.d, m1.b), m1.o) := by
  obtain ⟨a, calls, w1, outs1, hv, ⟨x1, u1, oc1, hopt⟩, hs, hrun⟩ := linear_alone
  have habout : about 0 (WOp.create 0 a :: calls.map fun op => (.call 0 op : WOp (linearKind ℚ))) = .create 0 a :: calls.map fun op => .call 0 op := by
    refine List.filter_eq_self.2 fun op ho => ?_
    rcases List.mem_cons.1 ho with rfl | ho
    · rfl
    · obtain ⟨y, -, rfl⟩ := List.mem_map.1 ho
      rfl
  have hin : ∃ x0 u0 oc, WOp.call 0 (LOp.optimize x0 u0 oc) ∈ WOp.create 0 a :: calls.map fun op => (.call 0 op : WOp (linearKind ℚ)) :=
    ⟨x1, u1, oc1, List.mem_cons_of_mem _ (List.mem_map_of_mem hopt)⟩
  generalize htodo : (WOp.create 0 a :: calls.map fun op => (.call 0 op : WOp (linearKind ℚ))) = todo at hrun habout hin
  obtain ⟨outs, es, m, i, I, junk, hS, hI, hr, hpast⟩ := helped_runs hrun
  obtain ⟨m1, outs2, h1, h2, h3⟩ := c137_linear (before := []) (outs0 := []) rfl hr (j := 0) (d' := a.1) (uninit := a.2.1) (junk := a.2.2)
    (calls := calls) (by rw [List.nil_append, hpast]; exact habout) hv hs
  rw [List.nil_append, List.nil_append, hpast] at h2
  exact ⟨todo, outs, es, m, i, I, junk, hin, hS, hI, hr, hpast, a.1, calls, m1, outs2, h1, ⟨x1, u1, oc1, hopt⟩, h2, h3⟩

/-- A nonlinear controller constructed inside is one of which everything proved about such controllers holds. -/
example : ∃ (outs : _) (es : _) (m : NlMpc dN ℚ) (i : Inner (nonlinearKind dN ℚ) (List (WOp (nonlinearKind dN ℚ)))) (junk : Nat → ℚ) (todo : _),
    UnRan helped.insider (.ok ⟨World.empty _, todo, []⟩) false
      ((opsC.map fun op => (op, noWork)) ++ [(.optimize (nvec 2 fun _ => 1) (nvec 1 fun _ => 0) [] (.answered (zN 1) (.fin 3) 1 false) junk, noWork)])
      outs es m (.ok i) ∧
    ∃ m1 outs1, NlRan dN false [] outs1 m1 ∧ i.world.view 0 = some ((), m1) := by
  obtain ⟨m0, h0, -⟩ := dN_new
  have hb : (nonlinearKind dN ℚ).build (fun _ => 0, false) = .ok ((), m0) := nonlinearKind_build.2 ⟨m0, h0, rfl⟩
  obtain ⟨w1, outs1, hrun⟩ : ∃ w1 outs1, (World.empty (nonlinearKind dN ℚ)).run [.create 0 (fun _ => 0, false)] = .ok (w1, outs1) := by
    rw [World.run, World.step_create (w := World.empty (nonlinearKind dN ℚ)) (i := 0) rfl hb]
    exact ⟨_, _, rfl⟩
  obtain ⟨outs, es, m, i, I, junk, hS, hI, hr, hpast⟩ := helped_runs hrun
  obtain ⟨m1, outs1, h1, -, h3⟩ := c137_nonlinear_partial (before := []) (outs0 := []) rfl hr (by
    rw [List.nil_append, hpast]
    intro op ho
    rw [List.mem_singleton.1 ho]
    trivial) (j := 0) (junk := fun _ => 0) (dyn' := false) (calls := []) (by rw [List.nil_append, hpast]; rfl) dN_ok (by decide)
    (by intro op ho; cases ho)
  exact ⟨outs, es, m, i, junk, _, hr, m1, outs1, h1, h3⟩

end Mpc.Props
