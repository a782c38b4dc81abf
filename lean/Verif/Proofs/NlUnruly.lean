import Verif.Spec.NlUnruly
import Verif.Proofs.NlAnySearch
import Verif.Proofs.NlThrowTotal

/-
User functions with memory which throw.
-/
namespace Mpc
open Exec NlSpec
set_option linter.unusedSectionVars false

section
variable {d : Dims} {K : Type} [Zero K] {α σ : Type}

theorem Whatever.some {p : Prog d K α} : ∀ {T : List (UserCall d K) → α → Prop}, Whatever p T → ∃ l a, T l a := by
  induction p with
  | done r => rintro T ⟨a, -, h⟩; exact ⟨[], a, h⟩
  | ask c k ih =>
    intro T h
    obtain ⟨l, a, ha⟩ := ih _ (h (zeroF c))
    exact ⟨_, a, ha⟩

/-- running with a memory and exceptions -/
theorem Whatever.attemptWith {p : Prog d K α} (f : Unruly d K σ) : ∀ {T : List (UserCall d K) → α → Prop} (s : σ), Whatever p T →
    (∃ a s' l, p.attemptWith f s = (.inl (.ok a), s', l) ∧ NoThrow l ∧ T (bares l) a) ∨
    (∃ c s' l rest a, p.attemptWith f s = (.inr c, s', l) ∧ LastThrew l ∧ T (bares l ++ rest) a) := by
  induction p with
  | done r => rintro T s ⟨a, rfl, h⟩; exact .inl ⟨a, s, [], rfl, fun c hc => (by cases hc), h⟩
  | ask c k ih =>
    intro T s h
    unfold Prog.attemptWith
    cases hf : f s c with
    | mk s' o =>
      cases o with
      | none =>
        obtain ⟨l, a, ha⟩ := (h (zeroF c)).some
        exact .inr ⟨c, s', [(c, true)], l, a, rfl, ⟨[], c, rfl, fun c hc => by cases hc⟩, ha⟩
      | some a =>
        rcases ih a s' (h a) with ⟨b, s1, l, e, hn, hb⟩ | ⟨c1, s1, l, rest, b, e, ⟨l1, c2, rfl, hn⟩, hb⟩
        · refine .inl ⟨b, s1, (c, false) :: l, ?_, ?_, hb⟩
          · dsimp only; rw [e]
          · intro q hq
            rcases List.mem_cons.1 hq with rfl | hq
            · rfl
            · exact hn q hq
        · refine .inr ⟨c1, s1, (c, false) :: (l1 ++ [(c2, true)]), rest, b, ?_, ⟨(c, false) :: l1, c2, rfl, ?_⟩, hb⟩
          · dsimp only; rw [e]
          · intro q hq
            rcases List.mem_cons.1 hq with rfl | hq
            · rfl
            · exact hn q hq

theorem bares_append (l l' : List (UserCall d K × Bool)) : bares (l ++ l') = bares l ++ bares l' := List.map_append

theorem bares_append_one (l : List (UserCall d K × Bool)) (c : UserCall d K × Bool) : bares (l ++ [c]) = bares l ++ [bare c.1] :=
  bares_append l [c]

theorem LastThrew.prepend {l l' : List (UserCall d K × Bool)} (h : NoThrow l) (h' : LastThrew l') : LastThrew (l ++ l') := by
  obtain ⟨l1, c, rfl, hn⟩ := h'
  refine ⟨l ++ l1, c, by rw [List.append_assoc], ?_⟩
  intro q hq
  rcases List.mem_append.1 hq with hq | hq
  · exact h q hq
  · exact hn q hq

theorem NoThrow.append {l l' : List (UserCall d K × Bool)} (h : NoThrow l) (h' : NoThrow l') : NoThrow (l ++ l') := by
  intro q hq
  rcases List.mem_append.1 hq with hq | hq
  · exact h q hq
  · exact h' q hq

theorem LastThrew.ne {l : List (UserCall d K × Bool)} (h : LastThrew l) : bares l ≠ [] := by
  obtain ⟨l1, c, rfl, hn⟩ := h
  rw [bares_append]
  simp [bares]

end

variable {d : Dims} {K : Type} {σ : Type} [Field K] [LinearOrder K] [IsStrictOrderedRing K]

namespace NlMpc

/-- the report, up to the outputs -/
structure Unwrapped (m : NlMpc d K) (c : NlCtl d K) (x0 z : Vec K) (w : Mat K × Mat K × K) : Prop where
  xs : w.1.Is (d.ph + 1) d.nx
  us : w.2.1.Is (d.ph + 1) d.nu
  x : w.1.viewF (d.ph + 1) d.nx = NlSpec.codeStates d c.cfg.stScale x0.get z.get
  u : w.2.1.viewF (d.ph + 1) d.nu = NlSpec.inputs d c.cfg.inScale z.get
  cmd : ∀ b, b < d.nu → w.2.1.get 0 b = c.cfg.inScale b * z.get (NlSpec.inputIx d 0 b)
  e : w.2.2 = z.get (slackIx d)

theorem unwrap_any {m : NlMpc d K} {c : NlCtl d K} {x0 z : Vec K} {X U : Mat K} (l1 : m.s.Holds (c.cfg.step (.measure x0))) (hx : x0.size = d.nx)
    (hz : z.size = d.nZ) (hX : X.Is (d.ph + 1) d.nx) (hU : U.Is (d.ph + 1) d.nu) :
    ∃ w, m.s.mp.unwrapVector z x0 X U = .ok w ∧ Unwrapped m c x0 z w := by
  obtain ⟨w, hw', hw⟩ := Mapping.unwrapVector_post m.s.mp l1.good z x0 X U (by rw [l1.dims]; exact hz) (by rw [l1.dims]; exact hx)
    (by rw [l1.dims]; exact hX.1) (by rw [l1.dims]; exact hX.2) (by rw [l1.dims]; exact hU.1) (by rw [l1.dims]; exact hU.2)
  have hd := l1.dims
  have hwX := hw.xr; have hwXc := hw.xc; have hwU := hw.ur; have hwUc := hw.uc
  rw [hd] at hwX hwXc hwU hwUc
  refine ⟨w, hw', ⟨hwX, hwXc⟩, ⟨hwU, hwUc⟩, ?_, ?_, ?_, ?_⟩
  · have := Objective.viewF_states hw
    rw [l1.stS, hd] at this
    exact this
  · have := Objective.viewF_inputs hw
    rw [l1.inS, hd] at this
    exact this
  · intro b hb
    have := hw.u 0 b (by omega) (by rw [hd]; exact hb)
    rw [this, hd, l1.inS]
    unfold NlSpec.inputAt
    rw [Nat.zero_min]
    rfl
  · rw [hw.e, hd]

/-- the report -/
theorem acceptP_any {m : NlMpc d K} {c : NlCtl d K} {x0 z : Vec K} {value : Ext K} {code : Int} {feas : Bool} {junk : Nat → K}
    (l1 : m.s.Holds (c.cfg.step (.measure x0))) (hp : d.ph < 2 ^ 31) (hx : x0.size = d.nx) (hz : z.size = d.nZ)
    (ho : m.o.optVector = z) :
    Whatever (m.acceptP x0 value code feas junk) (fun l m' => l = outCalls c.cfg.out.isSome (NlSpec.codeStates d c.cfg.stScale x0.get z.get)
        (NlSpec.inputs d c.cfg.inScale z.get) ∧ AnsweredAny c x0.get z.get value code m'.o.result m'.o ∧
      m'.o.result.is_feasible = feas ∧
      ∃ r st inp out, m' = { m with o := { m.o with currentSlack := z.get (slackIx d), result := r, seqState := st, seqInput := inp, seqOutput := out } }) := by
  unfold acceptP
  obtain ⟨w, hw, hW⟩ := unwrap_any (X := ⟨d.ph + 1, d.nx, fun i _ => junk i⟩) (U := ⟨d.ph + 1, d.nu, fun i _ => junk i⟩) l1 hx hz
    ⟨rfl, rfl⟩ ⟨rfl, rfl⟩
  rw [ho, hw, Prog.lift_ok_bind]
  have hwX := hW.xs.1; have hwXc := hW.xs.2; have hwU := hW.us.1; have hwUc := hW.us.2
  obtain ⟨st, hst⟩ : ∃ st, w.1.block 0 0 (d.ph + 1) d.nx = .ok st := ⟨_, Mat.block_ok (by omega) (by omega)⟩
  obtain ⟨inp, hinp⟩ : ∃ st, w.2.1.block 0 0 (d.ph + 1) d.nu = .ok st := ⟨_, Mat.block_ok (by omega) (by omega)⟩
  rw [Mat.row_ok (by omega), Prog.lift_ok_bind, hst, Prog.lift_ok_bind, hinp, Prog.lift_ok_bind]
  obtain ⟨s1, s2⟩ := block_full hW.xs hst
  obtain ⟨i1, i2⟩ := block_full hW.us hinp
  refine Whatever.bind (m.s.M.getOutputP_any w.1 w.2.1 hp hW.xs hW.us).whatever ?_
  rintro lo Y ⟨rfl, hY⟩
  have hYs : Y.Is (d.ph + 1) d.ny := hY
  obtain ⟨ou, hou⟩ : ∃ st, Y.block 0 0 (d.ph + 1) d.ny = .ok st := ⟨_, Mat.block_ok (by rw [hYs.1]; omega) (by rw [hYs.2]; omega)⟩
  obtain ⟨o1, -⟩ := block_full hYs hou
  rw [hou, Prog.lift_ok_bind]
  refine Whatever.pure ⟨?_, ⟨rfl, rfl, rfl, hwUc, hW.cmd, s1, i1, o1, s2.trans hW.x, i2.trans hW.u⟩, rfl,
    { solver_status := code, is_feasible := feas, cost := value, status := NlOpt.convertStatus code, cmd := ⟨w.2.1.cols, fun j => w.2.1.get 0 j⟩ },
    st, inp, ou, ?_⟩
  · rw [hW.x, hW.u, l1.out, List.append_nil]
    rfl
  · rw [← hW.e]

/-- what is written when the output function throws -/
theorem leave_any {m : NlMpc d K} {c : NlCtl d K} {x0 z : Vec K} {junk : Nat → K}
    (l1 : m.s.Holds (c.cfg.step (.measure x0))) (hx : x0.size = d.nx) (hz : z.size = d.nZ) (ho : m.o.optVector = z) :
    ∃ st inp, m.leave x0 z junk = .ok ({ m with o := { m.o with currentSlack := z.get (slackIx d), seqState := st, seqInput := inp } },
        .threw, .outputThrows z) ∧ st.Is (d.ph + 1) d.nx ∧ inp.Is (d.ph + 1) d.nu ∧
      st.viewF (d.ph + 1) d.nx = NlSpec.codeStates d c.cfg.stScale x0.get z.get ∧
      inp.viewF (d.ph + 1) d.nu = NlSpec.inputs d c.cfg.inScale z.get := by
  unfold leave
  obtain ⟨w, hw, hW⟩ := unwrap_any (X := ⟨d.ph + 1, d.nx, fun i _ => junk i⟩) (U := ⟨d.ph + 1, d.nu, fun i _ => junk i⟩) l1 hx hz
    ⟨rfl, rfl⟩ ⟨rfl, rfl⟩
  have hwX := hW.xs.1; have hwXc := hW.xs.2; have hwU := hW.us.1; have hwUc := hW.us.2
  obtain ⟨st, hst⟩ : ∃ st, w.1.block 0 0 (d.ph + 1) d.nx = .ok st := ⟨_, Mat.block_ok (by omega) (by omega)⟩
  obtain ⟨inp, hinp⟩ : ∃ st, w.2.1.block 0 0 (d.ph + 1) d.nu = .ok st := ⟨_, Mat.block_ok (by omega) (by omega)⟩
  obtain ⟨s1, s2⟩ := block_full hW.xs hst
  obtain ⟨i1, i2⟩ := block_full hW.us hinp
  rw [ho, hw, ok_bind, hst, ok_bind, hinp, ok_bind, hW.e]
  exact ⟨st, inp, rfl, s1, i1, s2.trans hW.x, i2.trans hW.u⟩

/-! ### what is remembered -/

theorem replays_append {f : Unruly d K σ} : ∀ {l l' : List (UserCall d K × Bool)} {s s' s'' : σ}, Replays f s l s' → Replays f s' l' s'' →
    Replays f s (l ++ l') s'' := by
  intro l
  induction l with
  | nil => rintro l' s s' s'' rfl h; exact h
  | cons q l ih => rintro l' s s' s'' ⟨h1, h2⟩ h; exact ⟨h1, ih h2 h⟩

theorem _root_.Mpc.Prog.attemptWith_replays {α : Type} (f : Unruly d K σ) (p : Prog d K α) : ∀ s,
    Replays f s (p.attemptWith f s).2.2 (p.attemptWith f s).2.1 := by
  induction p with
  | done r => intro s; rfl
  | ask c k ih =>
    intro s
    unfold Prog.attemptWith
    cases hf : f s c with
    | mk s' o =>
      cases o with
      | none => exact ⟨by rw [hf]; rfl, by rw [hf]; rfl⟩
      | some a =>
        refine ⟨by rw [hf]; rfl, ?_⟩
        rw [hf]
        exact ih a s'

theorem replays_of {α : Type} {f : Unruly d K σ} {p : Prog d K α} {s s' : σ} {l : List (UserCall d K × Bool)} {r : Exec α ⊕ UserCall d K}
    (h : p.attemptWith f s = (r, s', l)) : Replays f s l s' := by
  have := p.attemptWith_replays f s
  rw [h] at this
  exact this

/-- what an `optimize` leads to -/
structure UnOptimized (m : NlMpc d K) (c : NlCtl d K) (x0 u0 : Vec K) (oc : NlOutcome K) (cs : List (NlCallback K))
    (l : List (UserCall d K × Bool)) (m' : NlMpc d K) (out : NlOut K) (e : NlEnding K) (f : Insider d K σ) (s s' : σ) : Prop where
  dynamic : m'.dynamic = m.dynamic
  agrees : ∀ junk, m'.Agrees (c.stepT out.refused (.optimize x0 u0 [] e junk))
  res : (∃ z, e = .outputThrows z ∧ out = .threw ∧ Escaped c x0.get z.get m.o m'.o) ∨
    (∃ call, (∀ z, e ≠ .outputThrows z) ∧ out = .result m'.o.result call ∧ Given c x0.get u0.get call ∧
      ReportedAny c m.o.result x0.get m'.o.result m'.o e.outcome)
  calls : ∃ call, Given c x0.get u0.get call ∧ CallsMade c.cfg.out.isSome c.cfg.ineq.isSome c.cfg.eq.isSome
    (fun z => codeStates d c.cfg.stScale x0.get z.get) (fun z => inputs d c.cfg.inScale z.get)
    (cs.flatMap (callbackTrace zeroF c.cfg.cont c.cfg.out.isSome call (fun z => codeStates d c.cfg.stScale x0.get z.get)
        (fun z => inputs d c.cfg.inScale z.get))) oc m'.o.result.is_feasible l e ∧
    Reads c.cfg.out.isSome c.cfg.ineq.isSome c.cfg.eq.isSome
    (fun z => codeStates d c.cfg.stScale x0.get z.get) (fun z => inputs d c.cfg.inScale z.get)
    (cs.flatMap (callbackTrace zeroF c.cfg.cont c.cfg.out.isSome call (fun z => codeStates d c.cfg.stScale x0.get z.get)
        (fun z => inputs d c.cfg.inScale z.get))) f m.o.view s l s' e

theorem optimizeW_any (f : Insider d K σ) (wk : NlWork K) {m : NlMpc d K} {c : NlCtl d K} (h : m.Agrees c) (hp : d.ph < 2 ^ 31) {x0 u0 : Vec K}
    {cs : List (NlCallback K)} {oc : NlOutcome K} {junk : Nat → K} (hf : NlSpec.CallFits d (.optimize x0 u0 cs oc junk))
    (hb : c.Bound) (heq : c.cfg.eq.isSome = true → 0 < d.eq) (s0 : σ) :
    ∃ m' out e s' l, m.optimizeW f wk x0 u0 cs oc junk s0 = (.ok (m', out, e), s', l) ∧ UnOptimized m c x0 u0 oc cs l m' out e f s0 s' := by
  obtain ⟨hx, hu, hcs, hz⟩ := hf
  unfold optimizeW
  obtain ⟨m1, h1⟩ := onState_total h hp (.measure x0) hx trivial
  obtain ⟨k1, k2, k3, k4⟩ := onState_agrees h hp (op := .measure x0) hx h1
  obtain ⟨p, h2, p1, p2, p3⟩ := NlOpt.prepare_start k1.good k1.dims junk hx hu (o := m1.o) (by rw [k3]; exact h.zs)
  rw [h1, ok_bind, h2, ok_bind]
  show ∃ m' out e s' l, searchW f wk { m1 with o := { m1.o with optVector := p.1 } } (m1.solverCall p.2) x0 cs oc junk s0 = (.ok (m', out, e), s', l) ∧ _
  obtain ⟨hch, hle⟩ := h.pos
  -- the initial point
  have hstart : ∀ q, q < d.nZ → p.1.get q = c.start x0.get u0.get q := by
    intro q hq
    rw [p2 q hq, k3, h.first, h.warm]
    unfold NlCtl.start
    split_ifs with hc
    · unfold NlCtl.cold
      rw [h.z q hq]
    · exact h.z q hq
  have hgiven : Given c x0.get u0.get (m1.solverCall p.2) := by
    refine ⟨?_, ?_, ?_, ?_, ?_, ?_, ?_, ?_⟩
    · have := p3.congr (w := ⟨d.nZ, c.start x0.get u0.get⟩) hch hle hstart
      rw [k1.inS, k3, h.slack] at this
      exact this
    all_goals unfold solverCall; dsimp only; rw [k3]
    · rw [h.slb]; exact h.lbs
    · rw [h.sub]; exact h.ubs
    · rw [h.slb]; exact h.lb
    · rw [h.sub]; exact h.ub
    · exact h.lim
    · exact h.obj
    · exact h.groups
  generalize hcall : m1.solverCall p.2 = call at hgiven
  have e1 : call.objective = m1.o.objective := by rw [← hcall]; rfl
  have e2 : call.groups = m1.o.groups := by rw [← hcall]; rfl
  have hdyn : m1.dynamic = m.dynamic := k4
  -- failures
  have hfail : ∀ (v : Vec K) (b : Bool), Failed d m.o.result (NlOpt.failed { m1.o with optVector := v, first := b } d).result
      (NlOpt.failed { m1.o with optVector := v, first := b } d) := by
    intro v b
    unfold NlOpt.failed
    refine ⟨rfl, rfl, rfl, rfl, ?_, rfl, rfl, rfl⟩
    dsimp only
    rw [k3]
  have hagS : ∀ s : NlState d K, s.Holds (c.cfg.step (.measure x0)) → (s.con.ieqTol, s.con.eqTol) = (m1.s.con.ieqTol, m1.s.con.eqTol) →
      Agrees { m1 with s := s, o := NlOpt.failed { m1.o with optVector := p.1 } d } (c.solved x0.get u0.get .threw) := by
    intro s l1 l2
    have htol : (s.con.ieqTol, s.con.eqTol) = (m.s.con.ieqTol, m.s.con.eqTol) := by rw [l2]; exact k2
    unfold NlOpt.failed NlCtl.solved
    refine ⟨l1, fun hs => (congrArg Prod.fst htol).trans (h.ti hs), fun hs => (congrArg Prod.snd htol).trans (h.te hs),
      ?_, ?_, ?_, ?_, ?_, ?_, ?_, ?_, ?_, ?_, p1, hstart, ?_, ?_, ?_, ?_⟩
    all_goals dsimp only; rw [k3]
    · exact h.lbs
    · exact h.ubs
    · exact h.lb
    · exact h.ub
    · exact h.slb
    · exact h.sub
    · exact h.lim
    · exact h.warm
    · exact h.obj
    · exact h.groups
    · exact h.first
    · exact h.slack
    · exact h.cmds
    · exact h.cmd
  unfold searchW
  dsimp only
  have hsearch := (callbacksP_any (o := { m1.o with optVector := p.1 }) (call := call) (x := x0.get) k1 hp rfl
    (fun ho => hb.obj (by dsimp only at ho; rw [k3] at ho; exact h.obj.symm.trans ho))
    (fun g hg => by
      dsimp only at hg
      rw [k3, h.groups] at hg
      refine ⟨?_, hb.dim g hg⟩
      have := hb.set g hg
      revert this
      cases g.kind <;> exact id) e1 e2 cs hcs).whatever
  have hV : ∀ (v : Vec K) (b : Bool), NlOpt.view { m1.o with optVector := v, first := b } = m.o.view := by
    intro v b
    unfold NlOpt.view
    dsimp only
    rw [k3]
  rcases hsearch.attemptWith (f (NlOpt.view { m1.o with optVector := p.1 })) s0 with ⟨s, sg, l, e, hn, hl, l1, l2⟩ | ⟨cc, sg, l, rest, s, e, hlast, hl, -⟩
  swap
  · -- a callback throws
    dsimp only at e
    rw [e]
    refine ⟨_, _, _, _, _, rfl, hdyn, fun j => ?_, .inr ⟨call, (by rintro _ ⟨⟩), rfl, hgiven, hfail _ _⟩, call, hgiven,
      .inr ⟨hlast, rest, ?_⟩, ?_⟩
    · exact hagS _ (NlState.interrupted_holds k1 wk) rfl
    · exact hl
    · have := replays_of e
      rw [hV] at this
      exact this
  dsimp only at e
  rw [e]
  dsimp only
  replace hl : bares l = cs.flatMap (callbackTrace zeroF c.cfg.cont c.cfg.out.isSome call
    (fun z => codeStates d c.cfg.stScale x0.get z.get) (fun z => inputs d c.cfg.inScale z.get)) := hl
  have hR1 := replays_of e
  rw [hV] at hR1
  cases oc with
  | threw =>
    exact ⟨_, _, _, _, _, rfl, hdyn, fun j => hagS _ l1 l2, .inr ⟨call, (by rintro _ ⟨⟩), rfl, hgiven, hfail _ _⟩, call, hgiven,
      .inl ⟨rfl, hn, hl⟩, hR1⟩
  | answered z value code ct =>
    dsimp only at hz ⊢
    have htol : (s.con.ieqTol, s.con.eqTol) = (m.s.con.ieqTol, m.s.con.eqTol) := by rw [l2]; exact k2
    have ex0 : s.con.x0.get = x0.get := l1.cx0 _ rfl
    unfold checkW
    dsimp only
    rcases (NlState.isFeasibleP_any l1 hp heq z hz).attemptWith (f (NlOpt.view { m1.o with optVector := z, first := false })) sg with ⟨⟨ok, con'⟩, sc, lc, e', hnc, ⟨f1, f2⟩, f3⟩ |
      ⟨cc, sc, lc, rest, ⟨ok, con'⟩, e', hlast, -, f3⟩
    swap
    · -- the check throws
      rw [e']
      refine ⟨_, _, _, _, _, rfl, hdyn, fun j => ?_, .inr ⟨call, (by rintro _ ⟨⟩), rfl, hgiven, hfail _ _⟩, call, hgiven,
        ⟨⟨_, _, _, rfl⟩, LastThrew.prepend hn hlast, bares lc ++ rest, ok, bares lc, ?_, LastThrew.ne hlast, ⟨rest, rfl⟩, ?_⟩, ?_⟩
      · have hI := NlState.interrupted_holds l1 wk
        show Agrees _ (c.solved x0.get u0.get (.answered z (.fin 0) 0 true))
        unfold NlOpt.failed NlCtl.solved
        refine ⟨hI, fun hs => (congrArg Prod.fst htol).trans (h.ti hs), fun hs => (congrArg Prod.snd htol).trans (h.te hs),
          ?_, ?_, ?_, ?_, ?_, ?_, ?_, ?_, ?_, ?_, hz, fun _ _ => rfl, rfl, ?_, ?_, ?_⟩
        all_goals dsimp only; rw [k3]
        · exact h.lbs
        · exact h.ubs
        · exact h.lb
        · exact h.ub
        · exact h.slb
        · exact h.sub
        · exact h.lim
        · exact h.warm
        · exact h.obj
        · exact h.groups
        · exact h.slack
        · exact h.cmds
        · exact h.cmd
      · rw [ex0] at f3
        exact f3
      · rw [bares_append, hl]
      · have hR2 := replays_of e'
        rw [hV] at hR2
        exact replays_append hR1 hR2
    have hR2 := replays_of e'
    rw [hV] at hR2
    rw [e']
    dsimp only at f1 f2 f3 ⊢
    rw [ex0] at f3
    unfold reportW
    obtain ⟨st, inp, hL, s1, s2, s3, s4⟩ := leave_any (m := { m1 with s := { s with con := con' }, o := { m1.o with optVector := z, first := false } })
      (c := c) (junk := junk) f1 hx hz rfl
    dsimp only at hL ⊢
    rw [hL]
    dsimp only
    rcases (acceptP_any (m := { m1 with s := { s with con := con' }, o := { m1.o with optVector := z, first := false } }) (c := c)
        (value := value) (code := code) (feas := ok) (junk := junk) f1 hp hx hz rfl).attemptWith (f (NlOpt.view { m1.o with optVector := z, first := false, currentSlack := z.get (slackIx d), seqState := st, seqInput := inp })) sc with
      ⟨m', sr, lr, e'', hnr, q1, q2, q3, r, st', inp', ou, rfl⟩ | ⟨cc, sr, lr, rest, m', e'', hlast, q1, -⟩
    · -- an answer
      rw [e'']
      refine ⟨_, _, _, _, _, rfl, hdyn, fun j => ?_, .inr ⟨call, (by rintro _ ⟨⟩), rfl, hgiven, q2⟩, call, hgiven,
        ⟨⟨_, rfl⟩, NoThrow.append hn (NoThrow.append hnc hnr), bares lc, ?_, ?_⟩, ?_⟩
      · show Agrees _ (c.solved x0.get u0.get (.answered z value code false))
        unfold NlCtl.solved
        refine ⟨f1, fun hs => (congrArg Prod.fst f2).trans ((congrArg Prod.fst htol).trans (h.ti hs)),
          fun hs => (congrArg Prod.snd f2).trans ((congrArg Prod.snd htol).trans (h.te hs)), ?_, ?_, ?_, ?_,
          ?_, ?_, ?_, ?_, ?_, ?_, hz, fun _ _ => rfl, rfl, ?_, ?_, ?_⟩
        all_goals dsimp only
        rotate_left 10
        · exact q2.cmdSize
        · exact q2.cmd
        all_goals rw [k3]
        · exact h.lbs
        · exact h.ubs
        · exact h.lb
        · exact h.ub
        · exact h.slb
        · exact h.sub
        · exact h.lim
        · exact h.warm
        · exact h.obj
        · exact h.groups
      · dsimp only at q3 ⊢
        rw [q3]
        exact f3
      · rw [bares_append, bares_append, hl, q1]
      · exact ⟨lr, q1, l ++ lc, sc, _, bares lc, ok, (List.append_assoc ..).symm, replays_append hR1 hR2, replays_of e'',
          by rw [bares_append, hl], f3, congrArg NlOpt.result k3, congrArg NlOpt.seqOutput k3, s1.1, s1.2, s2.1, s2.2,
          fun k a => congrFun (congrFun s3 k) a, fun k b => congrFun (congrFun s4 k) b⟩
    · -- the output function throws
      rw [e'']
      refine ⟨_, _, _, _, _, rfl, hdyn, fun j => ?_, .inl ⟨z, rfl, rfl, ?_, ?_, s1, s2, s3, s4⟩, call, hgiven, ⟨⟨_, _, _, rfl⟩,
        LastThrew.prepend hn (LastThrew.prepend hnc hlast), bares lc, ok, bares lr, f3, LastThrew.ne hlast, ⟨rest, q1⟩, ?_⟩, ?_⟩
      · show Agrees _ (c.escaped x0.get u0.get z)
        unfold NlCtl.escaped NlCtl.solved
        refine ⟨f1, fun hs => (congrArg Prod.fst f2).trans ((congrArg Prod.fst htol).trans (h.ti hs)),
          fun hs => (congrArg Prod.snd f2).trans ((congrArg Prod.snd htol).trans (h.te hs)), ?_, ?_, ?_, ?_,
          ?_, ?_, ?_, ?_, ?_, ?_, hz, fun _ _ => rfl, rfl, ?_, ?_, ?_⟩
        all_goals dsimp only
        rotate_left 10
        all_goals rw [k3]
        · exact h.cmds
        · exact h.cmd
        · exact h.lbs
        · exact h.ubs
        · exact h.lb
        · exact h.ub
        · exact h.slb
        · exact h.sub
        · exact h.lim
        · exact h.warm
        · exact h.obj
        · exact h.groups
      · dsimp only; rw [k3]
      · dsimp only; rw [k3]
      · rw [bares_append, bares_append, hl]
      · exact ⟨lr, hlast, ⟨rest, q1⟩, l ++ lc, sc, _, bares lc, ok, (List.append_assoc ..).symm, replays_append hR1 hR2, replays_of e'',
          by rw [bares_append, hl], f3, congrArg NlOpt.result k3, congrArg NlOpt.seqOutput k3, s1.1, s1.2, s2.1, s2.2,
          fun k a => congrFun (congrFun s3 k) a, fun k b => congrFun (congrFun s4 k) b⟩

/-- what a call returns -/
def UnOut (d : Dims) (t : NlTCall d K) (o : NlOut K) : Prop :=
  match t with
  | .call op => Props.isOptimize op = false ∧ OutOk d op o
  | .optimize _ _ _ (.outputThrows _) _ => o = .threw
  | .optimize _ _ _ _ _ => ∃ r call, o = .result r call

theorem stepW_any (f : Insider d K σ) (w : NlWork K) {m : NlMpc d K} {c : NlCtl d K} (h : m.Agrees c) (hp : d.ph < 2 ^ 30) (hm : d.nZ ≤ 2 ^ 64)
    (op : NlCall d K) (hf : NlSpec.CallFits d op) (hr : Ready c m.dynamic op) (s : σ) :
    ∃ m' out t s' l, m.stepW f w op s = (.ok (m', out, t), s', l) ∧ m'.Agrees (c.stepT out.refused t) ∧ m'.dynamic = m.dynamic ∧
      Became op t ∧ UnOut d t out := by
  have hp' : d.ph < 2 ^ 31 := by omega
  by_cases hn : Props.isOptimize op = false
  · have e : m.stepW f w op s = ((m.step op).map fun q => (q.1, q.2, .call op), s, []) := by cases op <;> first | rfl | cases hn
    obtain ⟨⟨m', o⟩, hs⟩ := step_total h hp op hf hr
    obtain ⟨h1, h2⟩ := step_agrees h hp' hm op hf hs
    have h3 := step_out h hp' hm op hf hs
    rw [e, hs]
    refine ⟨m', o, .call op, s, [], rfl, h1, h2, ?_, hn, h3⟩
    cases op <;> first | rfl | cases hn
  · cases op with
    | optimize x0 u0 cs oc junk =>
      obtain ⟨m', out, e, s', l, he, hO⟩ := optimizeW_any f w h hp' hf hr.1 hr.2 s
      unfold stepW
      dsimp only
      rw [he]
      refine ⟨m', out, _, s', l, rfl, hO.agrees junk, hO.dynamic, ⟨e, rfl, ?_⟩, ?_⟩
      · obtain ⟨call, -, hC⟩ := hO.calls
        cases e with
        | solverThrows => trivial
        | checkThrows z w => exact hC.1.1
        | outputThrows z => exact hC.1.1
        | returns z v k => exact hC.1.1
      · rcases hO.res with ⟨z, rfl, h2, -⟩ | ⟨call, h1, h2, -⟩
        · exact h2
        · cases e with
          | outputThrows z => exact absurd rfl (h1 z)
          | solverThrows => exact ⟨_, _, h2⟩
          | checkThrows z w => exact ⟨_, _, h2⟩
          | returns z v k => exact ⟨_, _, h2⟩
    | _ => exact absurd rfl hn

theorem runW_snoc (f : Insider d K σ) (s : σ) {junk : Nat → K} {dyn : Bool} {ops : List (NlCall d K × NlWork K)} {op : NlCall d K × NlWork K}
    {m : NlMpc d K} {outs : List (NlOut K)} {es : List (NlTCall d K)} {s1 : σ} {l : List (UserCall d K × Bool)}
    (h : runW f s junk dyn ops = (.ok (m, outs, es), s1, l)) :
    runW f s junk dyn (ops ++ [op]) = ((m.stepW f op.2 op.1 s1).1.map fun a => (a.1, outs ++ [a.2.1], es ++ [a.2.2]),
      (m.stepW f op.2 op.1 s1).2.1, l ++ (m.stepW f op.2 op.1 s1).2.2) := by
  unfold runW at h ⊢
  rw [List.foldl_append, h]
  rfl

theorem readyT_of {dyn : Bool} {ops : List (NlCall d K)} {es : List (NlTCall d K)} {outs : List (NlOut K)} {op : NlCall d K}
    (hl : outs.length = es.length) (hb : List.Forall₂ Became ops es) (ha : NlSpec.AdmissibleHistory d dyn (ops ++ [op])) :
    Ready (NlCtl.afterT d es outs) dyn op := by
  have hop := ha ops op [] rfl
  cases op with
  | setEqConFunction F tol acc => exact hop.1
  | optimize x0 u0 cs oc j =>
    refine ⟨NlCtl.afterT_bound _ _, ?_⟩
    intro hs
    obtain ⟨F, tol, acc, hq⟩ := NlCtl.afterT_eq hl hs
    have hq' : .setEqConFunction F tol acc ∈ ops := by
      clear hs hl ha hop
      induction hb with
      | nil => cases hq
      | @cons o t _ _ a _ ih =>
        rcases List.mem_cons.1 hq with e | e
        · subst e
          cases o with
          | optimize x0 u0 cs oc j => obtain ⟨e, h, -⟩ := a; cases h
          | _ => cases a <;> exact List.mem_cons_self
        · exact List.mem_cons_of_mem _ (ih e)
    obtain ⟨pre, post, e⟩ := List.append_of_mem hq'
    have := ha pre (.setEqConFunction F tol acc) (post ++ [.optimize x0 u0 cs oc j]) (by rw [e]; simp)
    exact this.2
  | setOptimizerParameters p => exact hop
  | setStateBoundsSlice l u s => exact hop
  | setInputBoundsSlice l u s => exact hop
  | _ => trivial

/-- a history -/
theorem runW_any (hch : 0 < d.ch) (hle : d.ch ≤ d.ph) (hp : d.ph < 2 ^ 30) (hm : d.nZ ≤ 2 ^ 64) (f : Insider d K σ) (s0 : σ)
    (junk : Nat → K) (dyn : Bool) (ops : List (NlCall d K × NlWork K)) (hf : ∀ op ∈ ops, NlSpec.CallFits d op.1)
    (ha : NlSpec.AdmissibleHistory d dyn (ops.map Prod.fst)) :
    ∃ m outs es s l, runW f s0 junk dyn ops = (.ok (m, outs, es), s, l) ∧ m.Agrees (NlCtl.afterT d es outs) ∧ m.dynamic = dyn ∧
      outs.length = es.length ∧ List.Forall₂ Became (ops.map Prod.fst) es ∧ List.Forall₂ (UnOut d) es outs := by
  induction ops using List.reverseRecOn with
  | nil =>
    obtain ⟨m, e, h1, h2⟩ := init_agrees hch hle (show d.ph < 2 ^ 31 by omega) junk dyn
    refine ⟨m, [], [], s0, [], ?_, h1, h2, rfl, .nil, .nil⟩
    unfold runW
    rw [List.foldl_nil, e]
    rfl
  | append_singleton ops op ih =>
    rw [List.map_append] at ha ⊢
    obtain ⟨m, outs, es, s, l, e, h1, h2, h3, h4, h5⟩ := ih (fun o ho => hf o (by simp [ho]))
      (fun pre o post e => ha pre o (post ++ [op.1]) (by rw [e]; simp))
    obtain ⟨m', out, t, s', l', e', k1, k2, k3, k4⟩ := stepW_any f op.2 h1 hp hm op.1 (hf op (by simp))
      (by rw [h2]; exact readyT_of h3 h4 ha) s
    refine ⟨m', outs ++ [out], es ++ [t], s', l ++ l', ?_, ?_, k2.trans h2, by simp [h3], ?_, ?_⟩
    · rw [runW_snoc f s0 e, e']
      rfl
    · rw [NlCtl.afterT_snoc h3]
      exact k1
    · exact List.rel_append h4 (.cons k3 .nil)
    · exact List.rel_append h5 (.cons k4 .nil)

theorem settings_last {α : Type} (g : NlCall d K → Option α) (hg : ∀ x0 u0 cs oc j, g (.optimize x0 u0 cs oc j) = none)
    {ops : List (NlCall d K)} {es : List (NlTCall d K)} (hb : List.Forall₂ Became ops es) :
    NlSpec.last g (NlSpec.settings es) = NlSpec.last g ops := by
  induction hb with
  | nil => rfl
  | @cons o t ops es a _ ih =>
    have key : ∀ op : NlCall d K, o = op → t = .call op → NlSpec.last g (NlSpec.settings (t :: es)) = NlSpec.last g (o :: ops) := by
      rintro op rfl rfl
      have : NlSpec.settings (NlTCall.call o :: es) = o :: NlSpec.settings es := rfl
      rw [this, NlSpec.last, NlSpec.last, ih]
    cases o with
    | optimize x0 u0 cs oc j =>
      obtain ⟨e, rfl, -⟩ := a
      have : NlSpec.settings (NlTCall.optimize x0 u0 [] e j :: es) = NlSpec.settings es := rfl
      rw [this, NlSpec.last, hg, ih, Option.or_none]
    | _ => exact key _ rfl a

/-- settings after a history with functions which throw -/
theorem afterW_last {α : Type} (π : NlCtl d K → α) (g : NlCall d K → Option α) (hg : ∀ x0 u0 cs oc j, g (.optimize x0 u0 cs oc j) = none)
    (hs : ∀ c b op, π (NlCtl.step c b op) = (g op).getD (π c)) (ho : ∀ c x u oc, π (NlCtl.solved c x u oc) = π c)
    (he : ∀ c x u z, π (NlCtl.escaped c x u z) = π c) {ops : List (NlCall d K)} {es : List (NlTCall d K)} {outs : List (NlOut K)}
    (hl : outs.length = es.length) (hb : List.Forall₂ Became ops es) :
    π (NlCtl.afterT d es outs) = (NlSpec.last g ops).getD (π (NlCtl.fresh d)) := by
  rw [afterT_last π g hs ho he hl, settings_last g hg hb]

section
variable {ops : List (NlCall d K)} {es es' : List (NlTCall d K)} {outs outs' : List (NlOut K)}

theorem afterW_stScale (hl : outs.length = es.length) (hb : List.Forall₂ Became ops es) :
    (NlCtl.afterT d es outs).cfg.stScale = NlSpec.stScale ops :=
  afterW_last (fun c => c.cfg.stScale) NlSpec.stScaleOf (fun _ _ _ _ _ => rfl) (fun c b op => by call_cases op b)
    (fun c x u oc => by rw [solved_cfg]) (fun _ _ _ _ => rfl) hl hb

theorem afterW_inScale (hl : outs.length = es.length) (hb : List.Forall₂ Became ops es) :
    (NlCtl.afterT d es outs).cfg.inScale = NlSpec.inScale ops :=
  afterW_last (fun c => c.cfg.inScale) NlSpec.inScaleOf (fun _ _ _ _ _ => rfl) (fun c b op => by call_cases op b)
    (fun c x u oc => by rw [solved_cfg]) (fun _ _ _ _ => rfl) hl hb

theorem isSome_getD {α : Type} (o : Option α) : ((o.map fun _ => true).getD false) = o.isSome := by cases o <;> rfl

theorem afterW_out (hl : outs.length = es.length) (hb : List.Forall₂ Became ops es) :
    (NlCtl.afterT d es outs).cfg.out.isSome = (NlSpec.last NlSpec.outputOf ops).isSome := by
  have := afterW_last (fun c => c.cfg.out.isSome) (fun op => (NlSpec.outputOf op).map fun _ => true) (fun _ _ _ _ _ => rfl) (fun c b op => by call_cases op b)
    (fun c x u oc => by rw [solved_cfg]) (fun _ _ _ _ => rfl) hl hb
  rw [last_map] at this
  exact this.trans (isSome_getD _)

theorem afterW_ineq (hl : outs.length = es.length) (hb : List.Forall₂ Became ops es) :
    (NlCtl.afterT d es outs).cfg.ineq.isSome = (NlSpec.last NlSpec.ineqConOf ops).isSome := by
  have := afterW_last (fun c => c.cfg.ineq.isSome) (fun op => (NlSpec.ineqConOf op).map fun _ => true) (fun _ _ _ _ _ => rfl) (fun c b op => by call_cases op b)
    (fun c x u oc => by rw [solved_cfg]) (fun _ _ _ _ => rfl) hl hb
  rw [last_map] at this
  exact this.trans (isSome_getD _)

theorem afterW_eq (hl : outs.length = es.length) (hb : List.Forall₂ Became ops es) :
    (NlCtl.afterT d es outs).cfg.eq.isSome = (NlSpec.last NlSpec.eqConOf ops).isSome := by
  have := afterW_last (fun c => c.cfg.eq.isSome) (fun op => (NlSpec.eqConOf op).map fun _ => true) (fun _ _ _ _ _ => rfl) (fun c b op => by call_cases op b)
    (fun c x u oc => by rw [solved_cfg]) (fun _ _ _ _ => rfl) hl hb
  rw [last_map] at this
  exact this.trans (isSome_getD _)

theorem afterW_cont (hl : outs.length = es.length) (hb : List.Forall₂ Became ops es) :
    (NlCtl.afterT d es outs).cfg.cont = (NlSpec.last NlSpec.samplingOf ops).isSome := by
  have := afterW_last (fun c => c.cfg.cont) (fun op => (NlSpec.samplingOf op).map fun _ => true) (fun _ _ _ _ _ => rfl) (fun c b op => by call_cases op b)
    (fun c x u oc => by rw [solved_cfg]) (fun _ _ _ _ => rfl) hl hb
  rw [last_map] at this
  exact this.trans (isSome_getD _)

theorem unOut_refused {t t' : NlTCall d K} {o o' : NlOut K} (hc : course t = course t') (h : UnOut d t o) (h' : UnOut d t' o') :
    o.refused = o'.refused := by
  have opt : ∀ {x u vs e j} {o : NlOut K}, UnOut d (.optimize x u vs e j) o → o.refused = false := by
    intro x u vs e j o h
    cases e with
    | outputThrows z => rw [show o = .threw from h]; rfl
    | solverThrows => obtain ⟨r, call, rfl⟩ := h; rfl
    | checkThrows z w => obtain ⟨r, call, rfl⟩ := h; rfl
    | returns z v k => obtain ⟨r, call, rfl⟩ := h; rfl
  have no : ∀ {op x u vs e j}, Props.isOptimize op = false → course (.call op : NlTCall d K) ≠ course (.optimize x u vs e j) := by
    intro op x u vs e j hn he
    have e1 : course (.call op : NlTCall d K) = .call op := by cases op <;> first | rfl | cases hn
    rw [e1] at he
    cases e <;> cases he
  cases t with
  | optimize x u vs e j =>
    cases t' with
    | optimize x' u' vs' e' j' => rw [opt h, opt h']
    | call op => exact absurd hc.symm (no h'.1)
  | call op =>
    cases t' with
    | optimize x' u' vs' e' j' => exact absurd hc (no h.1)
    | call op' =>
      have e1 : ∀ {op : NlCall d K}, Props.isOptimize op = false → course (.call op : NlTCall d K) = .call op := by
        intro op hn; cases op <;> first | rfl | cases hn
      rw [e1 h.1, e1 h'.1] at hc
      cases hc
      rw [outOk_same h.1 h.2 h'.2]

theorem afterW_course (h : List.Forall₂ (UnOut d) es outs) (h' : List.Forall₂ (UnOut d) es' outs')
    (hc : es.map course = es'.map course) : NlCtl.afterT d es outs = NlCtl.afterT d es' outs' := by
  unfold NlCtl.afterT
  generalize (NlCtl.fresh d : NlCtl d K) = c
  induction h generalizing c es' outs' with
  | nil =>
    cases es' with
    | nil => cases h'; rfl
    | cons _ _ => simp at hc
  | cons a _ ih =>
    cases h' with
    | nil => simp at hc
    | cons a' t' =>
      simp only [List.map_cons, List.cons.injEq] at hc
      simp only [List.zip_cons_cons, List.foldl_cons]
      rw [unOut_refused hc.1 a a', ← NlCtl.stepT_course, hc.1, NlCtl.stepT_course]
      exact ih t' hc.2 _

end

/-! ### memory over all of a history, for functions which do not ask for reports -/

theorem reportW_replays (f : Unruly d K σ) (m : NlMpc d K) (call : NlSolverCall K) (x0 z : Vec K) (value : Ext K) (code : Int)
    (feas : Bool) (junk : Nat → K) (s : σ) : Replays f s (m.reportW (fun _ => f) call x0 z value code feas junk s).2.2
      (m.reportW (fun _ => f) call x0 z value code feas junk s).2.1 := by
  have h := (m.acceptP x0 value code feas junk).attemptWith_replays f s
  unfold reportW
  rcases leave m x0 z junk with _ | r
  · rfl
  dsimp only
  rcases hq : (m.acceptP x0 value code feas junk).attemptWith f s with ⟨(_ | _) | _, s', l⟩ <;> rw [hq] at h <;> exact h

theorem checkW_replays (f : Unruly d K σ) (w : NlWork K) (m : NlMpc d K) (call : NlSolverCall K) (x0 z : Vec K) (value : Ext K) (code : Int)
    (junk : Nat → K) (s : σ) : Replays f s (m.checkW (fun _ => f) w call x0 z value code junk s).2.2
      (m.checkW (fun _ => f) w call x0 z value code junk s).2.1 := by
  have h := (m.s.con.isFeasibleP m.s.mp m.s.M z).attemptWith_replays f s
  unfold checkW
  dsimp only
  rcases hq : (m.s.con.isFeasibleP m.s.mp m.s.M z).attemptWith f s with ⟨(_ | g) | _, s', l⟩ <;> rw [hq] at h
  · exact h
  · exact replays_append h (reportW_replays ..)
  · exact h

theorem optimizeW_replays (f : Unruly d K σ) (w : NlWork K) (m : NlMpc d K) (x0 u0 : Vec K) (cs : List (NlCallback K)) (oc : NlOutcome K)
    (junk : Nat → K) (s : σ) : Replays f s (m.optimizeW (fun _ => f) w x0 u0 cs oc junk s).2.2
      (m.optimizeW (fun _ => f) w x0 u0 cs oc junk s).2.1 := by
  unfold optimizeW
  generalize (do let m ← m.onState (.measure x0); let p ← m.o.prepare d m.s.mp junk x0 u0; return (m, p) : Exec (NlMpc d K × Vec K × Vec K)) = e
  rcases e with _ | ⟨m1, p⟩
  · rfl
  dsimp only
  unfold searchW
  dsimp only
  generalize { m1.o with optVector := p.1 } = o
  have h := (callbacksP o m1.s cs).attemptWith_replays f s
  rcases hq : (callbacksP o m1.s cs).attemptWith f s with ⟨(_ | st) | _, s', l⟩ <;> rw [hq] at h
  · exact h
  · cases oc with
    | threw => exact h
    | answered z v k t => exact replays_append h (checkW_replays ..)
  · exact h

end NlMpc
end Mpc
