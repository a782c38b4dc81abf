import Verif.Spec.Programs
import Verif.Proofs.LinFrame
import Verif.Proofs.LinSnoc
import Verif.Proofs.NlTotal
import Verif.Props.NlFunctions

/-
Programs which use a controller.
-/
namespace Mpc
open Exec
set_option linter.unusedSectionVars false

/-- The play of a program for which an invariant can be kept goes on. -/
theorem play_total {M Op Out K : Type} {start : Exec M} {step : M → Op → Exec (M × Out)} {look : M → Shown K}
    {p : Program Op Out K} (I : M → List (Event Op Out K) → Prop)
    (h0 : ∃ m, start = .ok m ∧ I m [⟨none, look m⟩])
    (h1 : ∀ m past op, I m past → p past = some op →
      ∃ r, step m op = .ok r ∧ I r.1 (⟨some (op, r.2), look r.1⟩ :: past)) :
    ∀ n, ∃ m past, play start step look p n = .ok (m, past) ∧ I m past ∧ (past.length = n + 1 ∨ p past = none)
  | 0 => by
    obtain ⟨m, hm, hI⟩ := h0
    exact ⟨m, _, by simp only [play, hm, ok_bind]; rfl, hI, .inl rfl⟩
  | n + 1 => by
    obtain ⟨m, past, hp, hI, hl⟩ := play_total I h0 h1 n
    simp only [play, hp, ok_bind]
    cases hn : p past with
    | none => exact ⟨m, past, rfl, hI, .inr hn⟩
    | some op =>
      obtain ⟨r, hr, hI'⟩ := h1 m past op hI hn
      refine ⟨r.1, ⟨some (op, r.2), look r.1⟩ :: past, ?_, hI', ?_⟩
      · dsimp only
        rw [hr, ok_bind]; rfl
      · rcases hl with hl | hl
        · left; simp [hl]
        · rw [hl] at hn; cases hn

/-- What the events of a play are: the construction and then calls which the program chose. -/
theorem script_cases {Op Out K : Type} {setup : List Op} {loop : Program Op Out K} {past : List (Event Op Out K)} {op : Op}
    (h : script setup loop past = some op) :
    setup[past.length - 1]? = some op ∨ (setup.length ≤ past.length - 1 ∧ loop past = some op) := by
  unfold script at h
  split at h
  · rename_i o ho
    cases h
    exact .inl ho
  · rename_i ho
    exact .inr ⟨List.getElem?_eq_none_iff.1 ho, h⟩

/-- Every call of a play was chosen by the program. -/
theorem play_calls {M Op Out K : Type} {start : Exec M} {step : M → Op → Exec (M × Out)} {look : M → Shown K}
    {p : Program Op Out K} : ∀ {n : Nat} {m : M} {past : List (Event Op Out K)}, play start step look p n = .ok (m, past) →
    ∀ e ∈ past, ∀ op out, e.call = some (op, out) → ∃ before, p before = some op
  | 0, m, past, h, e, he, op, out, hc => by
    obtain ⟨m0, -, h⟩ := bind_eq_ok.1 h
    cases h
    rw [List.mem_singleton.1 he] at hc
    cases hc
  | n + 1, m, past, h, e, he, op, out, hc => by
    simp only [play] at h
    obtain ⟨q, hq, h⟩ := bind_eq_ok.1 h
    split at h
    · cases h
      exact play_calls hq e he op out hc
    · rename_i o ho
      obtain ⟨r, -, h⟩ := bind_eq_ok.1 h
      cases h
      rcases List.mem_cons.1 he with rfl | he
      · cases hc
        exact ⟨q.2, ho⟩
      · exact play_calls hq e he op out hc

/-- A play of `n` calls shows the construction and at most `n` calls. -/
theorem play_length {M Op Out K : Type} {start : Exec M} {step : M → Op → Exec (M × Out)} {look : M → Shown K}
    {p : Program Op Out K} : ∀ {n : Nat} {m : M} {past : List (Event Op Out K)}, play start step look p n = .ok (m, past) →
    past.length ≤ n + 1
  | 0, m, past, h => by
    obtain ⟨m0, -, h⟩ := bind_eq_ok.1 h
    cases h
    exact le_refl _
  | n + 1, m, past, h => by
    simp only [play] at h
    obtain ⟨q, hq, h⟩ := bind_eq_ok.1 h
    have := play_length hq
    split at h
    · cases h; dsimp only at this; omega
    · obtain ⟨r, -, h⟩ := bind_eq_ok.1 h
      cases h
      simp only [List.length_cons]; omega

section linear
variable {K : Type} [Field K] [DecidableEq K] {d : Dims}

theorem LMpc.look_fits {m : LMpc K} {c : Spec.LinConfig K} (h : LMpc.Inv d m c) : Spec.ShownFits d m.look :=
  ⟨h.opt.cmd, h.opt.seqS, h.opt.seqU, h.opt.seqY⟩

theorem LMpc.step_shows {m : LMpc K} {x u : Vec K} {oc : OsqpOutcome K} {r : LMpc K × LOut K}
    (h : m.step (.optimize x u oc) = .ok r) : ∃ call, r.2 = .result r.1.getLastResult call := by
  simp only [LMpc.step, bind_eq_ok] at h
  obtain ⟨q, _, h⟩ := h
  cases h
  exact ⟨_, rfl⟩

end linear

section nonlinear
variable {K : Type} [Field K] [LinearOrder K] [IsStrictOrderedRing K] {d : Dims}

theorem NlMpc.look_fits_init (hch : 0 < d.ch) (hle : d.ch ≤ d.ph) (hp : d.ph < 2 ^ 31) (junk : Nat → K) (dyn : Bool) :
    Post (NlMpc.init d junk dyn) (fun m => Spec.ShownFits d m.look) := by
  obtain ⟨m, hm, -⟩ := NlMpc.init_agrees hch hle hp junk dyn
  refine ⟨m, hm, ?_⟩
  unfold NlMpc.init at hm
  obtain ⟨s, -, hm⟩ := bind_eq_ok.1 hm
  obtain ⟨o, ho, hm⟩ := bind_eq_ok.1 hm
  cases hm
  unfold NlOpt.init at ho
  obtain ⟨e1, e2, e3, e4⟩ := Props.setParameters_keeps ho
  unfold NlMpc.look
  dsimp only
  rw [e1, e2, e3, e4]
  exact ⟨rfl, ⟨rfl, rfl⟩, ⟨rfl, rfl⟩, ⟨rfl, rfl⟩⟩

/-- the calls of the events, the first one first -/
def callsOf {Op Out K : Type} (past : List (Event Op Out K)) : List Op := past.reverse.filterMap fun e => e.call.map Prod.fst

/-- what they returned -/
def retsOf {Op Out K : Type} (past : List (Event Op Out K)) : List Out := past.reverse.filterMap fun e => e.call.map Prod.snd

theorem callsOf_cons {Op Out K : Type} (past : List (Event Op Out K)) (op : Op) (o : Out) (s : Shown K) :
    callsOf (⟨some (op, o), s⟩ :: past) = callsOf past ++ [op] := by simp [callsOf]

theorem retsOf_cons {Op Out K : Type} (past : List (Event Op Out K)) (op : Op) (o : Out) (s : Shown K) :
    retsOf (⟨some (op, o), s⟩ :: past) = retsOf past ++ [o] := by simp [retsOf]

/-- What the play of a program with the nonlinear controller has come to. -/
structure NlPlayed (d : Dims) (dyn : Bool) (m : NlMpc d K) (past : List (Event (NlCall d K) (NlOut K) K)) : Prop where
  ran : Props.NlRan d dyn (callsOf past) (retsOf past) m
  adm : NlSpec.AdmissibleHistory d dyn (callsOf past)
  shows : Spec.ShownFits d m.look
  events : ∀ e ∈ past, Spec.NlEventOk d e

theorem NlMpc.step_keeps {dyn : Bool} {ops : List (NlCall d K)} {outs : List (NlOut K)} {m m' : NlMpc d K} {op : NlCall d K}
    {o : NlOut K} (h : Props.NlRan d dyn ops outs m) (hf : NlSpec.CallFits d op) (hs : m.step op = .ok (m', o))
    (hl : Spec.ShownFits d m.look) : Spec.ShownFits d m'.look := by
  by_cases ho : ∃ x u cs oc j, op = .optimize x u cs oc j
  · obtain ⟨x, u, cs, oc, j, rfl⟩ := ho
    simp only [NlMpc.step] at hs
    obtain ⟨a, -, -⟩ := h.agrees
    obtain ⟨r, call, rfl, hr, -, ha, -, hrep⟩ := NlMpc.optimize_ok a h.hor.ph_int hf hs
    suffices h3 : (m'.o.seqState.rows = d.ph + 1 ∧ m'.o.seqState.cols = d.nx) ∧
        (m'.o.seqInput.rows = d.ph + 1 ∧ m'.o.seqInput.cols = d.nu) ∧
        (m'.o.seqOutput.rows = d.ph + 1 ∧ m'.o.seqOutput.cols = d.ny) from ⟨ha.cmds, h3.1, h3.2.1, h3.2.2⟩
    rcases oc with _ | ⟨z, v, c, _ | _⟩
    · have hrep : NlMpc.Failed d m.o.result r m'.o := hrep
      rw [hrep.seqS, hrep.seqI, hrep.seqO]
      exact ⟨⟨rfl, rfl⟩, ⟨rfl, rfl⟩, ⟨rfl, rfl⟩⟩
    · have hrep : NlMpc.Answered _ x.get z.get v c r m'.o := hrep
      exact ⟨hrep.sS, hrep.sI, hrep.sO⟩
    · have hrep : NlMpc.Failed d m.o.result r m'.o := hrep
      rw [hrep.seqS, hrep.seqI, hrep.seqO]
      exact ⟨⟨rfl, rfl⟩, ⟨rfl, rfl⟩, ⟨rfl, rfl⟩⟩
  · obtain ⟨e1, e2, e3, e4⟩ := Props.c58_persist hs (by cases op <;> first | rfl | exact absurd ⟨_, _, _, _, _, rfl⟩ ho)
    unfold NlMpc.look at hl ⊢
    rw [e1, e2, e3, e4]
    exact hl

theorem NlPlayed.start (hor : Props.HorizonsOk d) (mem : d.ph * d.nx + d.nu * d.ch + 1 ≤ 2 ^ 64) (junk : Nat → K) (dyn : Bool) :
    ∃ m, NlMpc.init d junk dyn = .ok m ∧ NlPlayed d dyn m [⟨none, m.look⟩] := by
  obtain ⟨m, hm, hl⟩ := NlMpc.look_fits_init hor.ch_pos hor.ch_le hor.ph_int junk dyn
  refine ⟨m, hm, ⟨⟨hor, mem, by simp [callsOf], junk, ?_⟩, ?_, hl, ?_⟩⟩
  · show NlMpc.run d junk dyn [] = _
    unfold NlMpc.run
    rw [List.foldl_nil, hm, ok_bind]; rfl
  · intro pre op post e
    simp [callsOf] at e
  · intro e he
    rw [List.mem_singleton.1 he]
    exact ⟨hl, by rintro x u cs oc j out ⟨⟩⟩

theorem NlPlayed.next {dyn : Bool} {m : NlMpc d K} {past : List (Event (NlCall d K) (NlOut K) K)} (h : NlPlayed d dyn m past)
    (hp : d.ph < 2 ^ 30) {op : NlCall d K} (hf : NlSpec.CallFits d op) (ha : NlSpec.Admissible d dyn [] op) :
    ∃ r, m.step op = .ok r ∧ NlPlayed d dyn r.1 (⟨some (op, r.2), r.1.look⟩ :: past) := by
  have hadm : NlSpec.AdmissibleHistory d dyn (callsOf past ++ [op]) := by
    intro pre o post e
    rcases List.eq_nil_or_concat post with rfl | ⟨post', x, rfl⟩
    · obtain ⟨-, e2⟩ := List.append_inj' e rfl
      cases e2
      exact ha
    · have : callsOf past ++ [op] = (pre ++ o :: post') ++ [x] := by rw [e]; simp
      obtain ⟨e1, -⟩ := List.append_inj' this rfl
      exact h.adm pre o post' e1
  obtain ⟨junk, hrun⟩ := h.ran.ran
  obtain ⟨⟨m', outs'⟩, hr⟩ := NlMpc.run_total h.ran.hor.ch_pos h.ran.hor.ch_le hp h.ran.mem junk dyn (callsOf past ++ [op])
    (by
      intro o ho
      rcases List.mem_append.1 ho with ho | ho
      · exact h.ran.fits o ho
      · rw [List.mem_singleton.1 ho]; exact hf) hadm
  rw [NlMpc.run_snoc, hrun, ok_bind] at hr
  obtain ⟨r, hs, -⟩ := bind_eq_ok.1 hr
  refine ⟨r, hs, ?_⟩
  have hfit := NlMpc.step_keeps h.ran hf hs h.shows
  refine ⟨?_, ?_, hfit, ?_⟩
  · rw [callsOf_cons, retsOf_cons]
    exact h.ran.snoc hf hs
  · rw [callsOf_cons]; exact hadm
  · intro e he
    rcases List.mem_cons.1 he with rfl | he
    · refine ⟨hfit, ?_⟩
      rintro x u cs oc j out ⟨⟩
      simp only [NlMpc.step] at hs
      obtain ⟨a, -, -⟩ := h.ran.agrees
      obtain ⟨r', call, e, hr', -⟩ := NlMpc.optimize_ok a h.ran.hor.ph_int hf hs
      exact ⟨call, by rw [e, hr']; rfl⟩
    · exact h.events e he

end nonlinear

section linear
variable {K : Type} [Field K] [DecidableEq K] {d : Dims}

/-- What the play of a program with the linear controller has come to. -/
structure LPlayed (d : Dims) (m : LMpc K) (past : List (Event (LOp K) (LOut K) K)) : Prop where
  conf : Spec.Configured d (callsOf past) (retsOf past) m
  warm : LMpc.WarmSafe d m
  events : ∀ e ∈ past, Spec.LEventOk d e

theorem LPlayed.start (hd : d.Valid) (uninit : Nat → Nat → K) (junk : Nat → Nat) :
    ∃ m, LMpc.new d uninit junk = .ok m ∧ LPlayed d m [⟨none, m.look⟩] := by
  obtain ⟨m, hm, hi⟩ := LMpc.new_inv hd uninit junk
  refine ⟨m, hm, ⟨hd, by simp [callsOf], uninit, junk, m, hm, rfl⟩, LMpc.new_warmSafe hm, ?_⟩
  intro e he
  rw [List.mem_singleton.1 he]
  exact ⟨LMpc.look_fits hi, by rintro x u oc out ⟨⟩, by rintro op out ⟨⟩⟩

theorem LPlayed.next (hle : d.ch ≤ d.ph) (hph : d.ph < 2 ^ 30) {m : LMpc K} {past : List (Event (LOp K) (LOut K) K)}
    (h : LPlayed d m past) {op : LOp K} (hs : Spec.Sized d op) (hn : Spec.SliceNonneg op) (hh : Props.Harmless d op) :
    ∃ r, m.step op = .ok r ∧ LPlayed d r.1 (⟨some (op, r.2), r.1.look⟩ :: past) := by
  have hsafe : LMpc.Safe d op := by
    cases op with
    | setInputBounds mn mx => exact hh
    | setInputBoundsSlice mn mx s =>
      simp only [LMpc.Safe]
      split_ifs with he
      · exact hh he
      · exact hle
    | setExogenousInputsSlice v s => exact .inr hle
    | setOptimizerParameters p => obtain ⟨q, rfl⟩ := hh; simp [LMpc.Safe]
    | setSolverWarmStart x y =>
      rw [Props.Harmless, Solved.varCount_eq, Solved.rowCount_eq] at hh
      exact .inr (.inr hh)
    | optimize x u oc => obtain ⟨a, b, c, rfl⟩ := hh; simp [LMpc.Safe]
    | _ => trivial
  have hi := configured_inv h.conf
  have hd := h.conf.1
  obtain ⟨r, hr⟩ := LMpc.step_total hd hph (by omega) hi h.warm hs hn hsafe
  refine ⟨r, hr, ?_, LMpc.step_warm hd hi h.warm hs hsafe hr, ?_⟩
  · rw [callsOf_cons, retsOf_cons]
    exact configured_snoc h.conf ⟨hs, hn⟩ hr
  · intro e he
    rcases List.mem_cons.1 he with rfl | he
    · refine ⟨LMpc.look_fits (LMpc.step_inv hd hi hs hn hr), ?_, ?_⟩
      · rintro x u oc out ⟨⟩
        exact LMpc.step_shows hr
      · rintro op out ⟨⟩ hacc
        exact ((LMpc.step_accepts hd hph (by omega) hi hs hacc).of_eq hr).1
    · exact h.events e he

end linear
end Mpc
