import Verif.Proofs.NlUnrulyAgree
import Verif.Props.NlUnruly

/-
C134: where it overlaps with the models of C132 (functions which throw or answer always the same for the same arguments) and C133
(functions which remember and do not throw), the model of C134 is the same.
-/
namespace Mpc.Props
open Mpc Exec NlSpec
set_option linter.unusedSectionVars false

section
variable {d : Dims} {K : Type} {σ : Type} [Field K] [LinearOrder K] [IsStrictOrderedRing K]
variable {dyn : Bool} {m m' : NlMpc d K} {x0 u0 : Vec K} {cs : List (NlCallback K)} {oc : NlOutcome K} {r : LResult K}
  {call : NlSolverCall K} {s0 s s' : σ} {outs : List (NlOut K)}

/-- C134: functions which never throw make the same calls, leave the same behind and get the same results as in C133. -/
theorem c134_agrees_returning {g : Stateful d K σ} {ops : List (NlCall d K × NlWork K)} {l : List (UserCall d K)} (w : NlWork K)
    (h : StAsked g s0 dyn (ops.map Prod.fst) outs x0 u0 cs oc m m' s s' r call l)
    (hops : ∀ op ∈ ops, ∀ x0 u0 cs z v k t junk, op.1 = .optimize x0 u0 cs (.answered z v k t) junk → t = false)
    (hoc : ∀ z v k t, oc = .answered z v k t → t = false) :
    ∃ es, UnAsked (fun _ s c => ((g s c).1, some (g s c).2)) s0 dyn ops outs es x0 u0 cs oc w m m' s s' (.result r call)
      (match oc with
        | .threw => .solverThrows
        | .answered z v k _ => .returns z v k) (l.map fun c => (c, false)) := by
  obtain ⟨junk, l0, hr⟩ := h.ran
  obtain ⟨es, hr⟩ := NlMpc.runW_calm hops hr
  obtain ⟨j, ha⟩ := h.adm
  obtain ⟨junk', hf, hq⟩ := h.ask
  refine ⟨es, ⟨⟨h.hor, h.small, h.mem, ?_, adm_init ha, junk, _, hr⟩, ⟨j, ha⟩, junk', hf, ?_⟩⟩
  · intro op hop
    exact h.fits op.1 (List.mem_map.2 ⟨op, hop, rfl⟩)
  · have := NlMpc.optimizeW_calm w hoc hq
    rw [show (fun _ s c => ((g s c).1, some (g s c).2) : Insider d K σ) = fun _ => calm g from rfl, this]
    cases oc <;> rfl

namespace Calls

/-- running with memoryless functions -/
theorem attemptWith_fixed {α : Type} {T : ∀ c : UserCall d K, Option c.Ans} (p : Prog d K α) (s : σ) :
    ∃ q, p.attemptWith (fun s c => (s, T c)) s = ((p.attempt T).1, s, q) ∧ q.map Prod.fst = (p.attempt T).2 := by
  induction p with
  | done r => exact ⟨[], rfl, rfl⟩
  | ask c k ih =>
    rw [Prog.attempt, Prog.attemptWith]
    cases hc : T c with
    | none => exact ⟨[(c, true)], rfl, rfl⟩
    | some a =>
      obtain ⟨q, h1, h2⟩ := ih a
      dsimp only
      rw [h1]
      exact ⟨(c, false) :: q, rfl, by rw [← h2]; rfl⟩

theorem attempt_run {α : Type} {T : ∀ c : UserCall d K, Option c.Ans} {F : ∀ c : UserCall d K, c.Ans}
    (hT : ∀ c, T c = none ∨ T c = some (F c)) (p : Prog d K α) {r : Exec α} {l : List (UserCall d K)} (h : p.attempt T = (.inl r, l)) :
    p.run F = r := by
  induction p generalizing l with
  | done r0 => cases h; rfl
  | ask c k ih =>
    rw [Prog.attempt] at h
    rcases hT c with hc | hc
    · rw [hc] at h; cases h
    · rw [hc] at h
      dsimp only at h
      rcases hq : (k (F c)).attempt T with ⟨a, b⟩
      rw [hq] at h
      cases h
      exact ih _ hq

end Calls

theorem leave_or (m : NlMpc d K) (x0 z : Vec K) (value : Ext K) (code : Int) (feas : Bool) (junk : Nat → K) :
    (∃ r, NlMpc.leave m x0 z junk = .ok r) ∨ ∃ e, m.acceptP x0 value code feas junk = .done (.error e) := by
  unfold NlMpc.leave NlMpc.acceptP
  cases m.s.mp.unwrapVector m.o.optVector x0 ⟨d.ph + 1, d.nx, fun i _ => junk i⟩ ⟨d.ph + 1, d.nu, fun i _ => junk i⟩ with
  | error e => exact .inr ⟨e, rfl⟩
  | ok w =>
    cases hr : w.2.1.row 0 with
    | error e => exact .inr ⟨e, by change Prog.andThen (Prog.done (w.2.1.row 0)) _ = _; rw [hr]; rfl⟩
    | ok c =>
      simp only [ok_bind]
      cases h1 : w.1.block 0 0 (d.ph + 1) d.nx with
      | error e => exact .inr ⟨e, by
          change Prog.andThen (Prog.done (w.2.1.row 0)) _ = _; rw [hr]
          change Prog.andThen (Prog.done (w.1.block 0 0 (d.ph + 1) d.nx)) _ = _; rw [h1]; rfl⟩
      | ok st =>
        simp only [ok_bind]
        cases h2 : w.2.1.block 0 0 (d.ph + 1) d.nu with
        | error e => exact .inr ⟨e, by
            change Prog.andThen (Prog.done (w.2.1.row 0)) _ = _; rw [hr]
            change Prog.andThen (Prog.done (w.1.block 0 0 (d.ph + 1) d.nx)) _ = _; rw [h1]
            change Prog.andThen (Prog.done (w.2.1.block 0 0 (d.ph + 1) d.nu)) _ = _; rw [h2]; rfl⟩
        | ok inp => exact .inl ⟨_, rfl⟩

/-- C134: functions without memory, which may throw, make the same calls and get the same results as in C132. -/
theorem c134_agrees_memoryless {ops : List (NlCall d K)} {F : ∀ c : UserCall d K, c.Ans} {T : ∀ c : UserCall d K, Option c.Ans}
    (w : NlWork K) {junk : Nat → K} {out : NlOut K} {l : List (UserCall d K)} (h : NlRan d dyn ops outs m) (hF : SetFunctions ops F)
    (hT : ∀ c, T c = none ∨ T c = some (F c)) (hfit : CallFits d (.optimize x0 u0 cs oc junk))
    (hr : m.step (.optimize x0 u0 cs oc junk) = .ok (m', .result r call))
    {n : NlMpc d K} (hA : m.optimizeA T w x0 u0 cs oc junk = (.ok (n, out), l)) :
    ∃ e q, m.optimizeW (fun _ s c => (s, T c)) w x0 u0 cs oc junk s = (.ok (n, out, e), s, q) ∧ q.map Prod.fst = l := by
  obtain ⟨m1, p, st, h1, h2, k3, hcall, hAl, c1, c2, h4, hres, hans⟩ := optimize_phases h hF hfit hr
  rw [optimizeA_eq T w h1 h2] at hA
  unfold NlMpc.optimizeW
  rw [h1, ok_bind, h2]
  simp only [ok_bind, pure, Except.pure]
  unfold NlMpc.searchA at hA
  unfold NlMpc.searchW
  dsimp only at hA ⊢
  rw [callbacksP_optVector] at hA ⊢
  obtain ⟨q, e1, e2⟩ := Calls.attemptWith_fixed (T := T) (NlMpc.callbacksP m1.o m1.s cs) s
  rw [e1]
  rcases hq : (NlMpc.callbacksP m1.o m1.s cs).attempt T with ⟨(f | s2) | c, l1⟩
  · rw [hq] at hA; cases hA
  · rw [hq] at hA e2
    have e3 : s2 = st := by
      have := Calls.attempt_run hT _ hq
      rw [c1] at this
      cases this
      rfl
    subst e3
    dsimp only at hA e2 ⊢
    cases oc with
    | threw =>
      cases hA
      exact ⟨_, q, rfl, e2⟩
    | answered z v k t =>
      dsimp only at hA ⊢
      unfold NlMpc.checkW
      dsimp only
      obtain ⟨q2, g1, g2⟩ := Calls.attemptWith_fixed (T := T) (s2.con.isFeasibleP s2.mp s2.M z) s
      rw [g1]
      rcases hq2 : (s2.con.isFeasibleP s2.mp s2.M z).attempt T with ⟨(f | f) | c, l2⟩
      · rw [hq2] at hA; cases hA
      · rw [hq2] at hA g2
        have hfe := Calls.attempt_run hT _ hq2
        rw [Constraints.isFeasibleP_run s2.con s2.mp hAl.out hAl.ineq hAl.eq z] at hfe
        dsimp only at hA g2 ⊢
        unfold NlMpc.reportW
        rcases leave_or { m1 with s := { s2 with con := f.2 }, o := { m1.o with optVector := z, first := false } } x0 z v k f.1 junk
          with ⟨⟨b1, b2, b3⟩, hb⟩ | ⟨e, he⟩
        swap
        · exfalso
          rw [he] at hA
          cases hA
        rw [hb]
        dsimp only
        obtain ⟨q3, j1, j2⟩ := Calls.attemptWith_fixed (T := T)
          (NlMpc.acceptP { m1 with s := { s2 with con := f.2 }, o := { m1.o with optVector := z, first := false } } x0 v k f.1 junk) s
        rw [j1]
        rcases hq3 : (NlMpc.acceptP { m1 with s := { s2 with con := f.2 }, o := { m1.o with optVector := z, first := false } } x0 v k f.1 junk).attempt T
          with ⟨(f3 | m3) | c, l3⟩
        · rw [hq3] at hA; cases hA
        · rw [hq3] at hA j2
          cases hA
          exact ⟨_, q ++ (q2 ++ q3), rfl, by rw [List.map_append, List.map_append, e2, g2, j2]⟩
        · rw [hq3] at hA j2
          dsimp only at hA j2 ⊢
          have hc : NlMpc.conclude { m1 with s := s2, o := { m1.o with optVector := p.1 } } (m1.solverCall p.2) x0 junk (.outputThrows z)
              = .ok (b1, b2) := by
            unfold NlMpc.conclude NlMpc.escape
            unfold NlMpc.leave at hb
            dsimp only at hb ⊢
            rw [hfe, ok_bind]
            obtain ⟨w1, k1, hb⟩ := bind_eq_ok.1 hb
            obtain ⟨w2, k2, hb⟩ := bind_eq_ok.1 hb
            obtain ⟨w3, k3, hb⟩ := bind_eq_ok.1 hb
            rw [k1, ok_bind, k2, ok_bind, k3, ok_bind]
            cases hb
            rfl
          obtain ⟨rfl, rfl, rfl⟩ : b1 = n ∧ b2 = out ∧ l1 ++ (l2 ++ l3) = l := by
            have a1 := congrArg Prod.fst hA
            have a2 := Except.ok.inj (hc.symm.trans a1)
            exact ⟨congrArg Prod.fst a2, congrArg Prod.snd a2, congrArg Prod.snd hA⟩
          exact ⟨_, q ++ (q2 ++ q3), rfl, by rw [List.map_append, List.map_append, e2, g2, j2]⟩
      · rw [hq2] at hA g2
        cases hA
        exact ⟨_, q ++ q2, rfl, by rw [List.map_append, e2, g2]⟩
  · rw [hq] at hA e2
    cases hA
    exact ⟨_, q, rfl, e2⟩

end

/-- C134: an output function which always throws, without inequality constraints: the exception leaves `optimize`. -/
example {σ : Type} (w : NlWork ℚ) (s : σ) : ∃ outs m m' r call,
    NlAsked dN false opsEsc outs (nvec 2 fun _ => 1) (nvec 1 fun _ => 0) [] (.answered (zN 1) (.fin 0) 1 false) m m' r call ∧
    ∃ junk m1 e q, m.optimizeW (fun _ s c => (s, throwsOut c)) w (nvec 2 fun _ => 1) (nvec 1 fun _ => 0) []
      (.answered (zN 1) (.fin 0) 1 false) junk s = (.ok (m1, .threw, e), s, q) ∧ q.length = 1 := by
  obtain ⟨outs, m, m', r, call, h⟩ := asked_of (ops := opsEsc) 1 0 (.answered (zN 1) (.fin 0) 1 false) (by rintro _ _ _ _ ⟨⟩; rfl)
    (by simp [opsEsc, NlSpec.CallFits]) (by simp [opsEsc, AdmFrom, NlSpec.Admissible])
  refine ⟨outs, m, m', r, call, h, ?_⟩
  obtain ⟨junk, hf, hr⟩ := h.ask
  have e : checkCalls opsEsc (nvec 2 fun _ => 1) fnsC (zN 1) = [] := by unfold checkCalls checkTrace; exact if_neg (by decide)
  obtain ⟨m1, q1, -⟩ := c132_report_throws w h.toNlRan fnsC_setEsc throwsOut_fnsC hf hr
    (by
      intro c hc
      rw [e] at hc
      cases hc)
    (l := []) (by unfold reportCalls outCalls; rfl) (by simp) rfl
  obtain ⟨en, q, h1, h2⟩ := c134_agrees_memoryless (s := s) w h.toNlRan fnsC_setEsc throwsOut_fnsC hf hr q1
  refine ⟨junk, m1, en, q, h1, ?_⟩
  have := congrArg List.length h2
  rw [List.length_map, e] at this
  rw [this]
  rfl

/-- C134: functions which never answer the same twice, and do not throw: the answer of the solver is reported. -/
example (w : NlWork ℚ) : ∃ outs m m' s s' r call l es e,
    StAsked restless 0 false opsC outs (nvec 2 fun _ => 1) (nvec 1 fun _ => 0) [.obj (zN 1) true fun _ => 0]
      (.answered (nvec 9 fun _ => 2) (.fin 3) 1 false) m m' s s' r call l ∧
    UnAsked (fun _ s c => ((restless s c).1, some (restless s c).2)) 0 false (opsC.map fun op => (op, w)) outs es (nvec 2 fun _ => 1)
      (nvec 1 fun _ => 0) [.obj (zN 1) true fun _ => 0] (.answered (nvec 9 fun _ => 2) (.fin 3) 1 false) w m m' s s' (.result r call) e
      (l.map fun c => (c, false)) := by
  obtain ⟨m, outs, s, l, hr, -⟩ := c133_total dN_ok (by decide) (by decide) restless 0 (fun _ => 0) false opsC opsC_fits
    (adm_init (opsC_adm (op := .setInputScale (nvec 1 fun _ => 1)) trivial))
  have h : StRan restless 0 false opsC outs m s := ⟨dN_ok, by decide, by decide, opsC_fits, _, l, hr⟩
  obtain ⟨m', s', r, call, l', h'⟩ := c133_answers (x0 := nvec 2 fun _ => 1) (u0 := nvec 1 fun _ => 0) (cs := [.obj (zN 1) true fun _ => 0])
    (oc := .answered (nvec 9 fun _ => 2) (.fin 3) 1 false) (junk := fun _ => 0) h
    ⟨rfl, rfl, by intro c hc; rw [List.mem_singleton.1 hc]; rfl, rfl⟩ (opsC_adm trivial)
  have eops : (opsC.map fun op => (op, w)).map Prod.fst = opsC := by rw [List.map_map]; exact List.map_id _
  obtain ⟨es, hu⟩ := c134_agrees_returning (ops := opsC.map fun op => (op, w)) w (by rw [eops]; exact h')
    (by
      intro op hop x0 u0 cs z v k t junk e
      rw [List.mem_map] at hop
      obtain ⟨o, ho, rfl⟩ := hop
      subst e
      simp [opsC] at ho)
    (by rintro _ _ _ _ ⟨⟩; rfl)
  exact ⟨outs, m, m', s, s', r, call, l', es, _, h', hu⟩

end Mpc.Props
