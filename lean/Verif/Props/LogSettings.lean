import Verif.Props.Messages

/-
C91: the log settings of a program with several controllers.
-/
namespace Mpc
open Mpc.Spec Exec
set_option linter.unusedSectionVars false
variable {k : Kind}

namespace Props

/-- C91 as stated: in every program, each message looks as the level and the prefix of the controller it comes from say. -/
def C91Claim (sp : Speaker k) : Prop :=
  ∀ (acts : List (LAct k)) w outs, (LogWorld.empty k).run sp acts = .ok (w, outs) →
    ∀ s, w.log.text s = textBy own s [] (spoken acts outs)

theorem new_text (s : Nat) : Logger.new.text s = "" := rfl

/-- C91, partial: each message looks as the level and the prefix say which were set last, on whatever controller. (Missing: that
these are those of the controller it comes from.) -/
theorem c91_text_partial {sp : Speaker k} {acts : List (LAct k)} {w : LogWorld k} {outs}
    (h : (LogWorld.empty k).run sp acts = .ok (w, outs)) (s : Nat) :
    w.log.text s = textBy common s [] (spoken acts outs) := by
  rw [(run_text inForce_new h).2 s]
  show Logger.new.text s ++ _ = _
  rw [new_text, String.empty_append]

/-- the level and prefix of the only controller are those in force -/
theorem own_common {i : Nat} {acts : List (LAct k)} (h : ∀ a ∈ acts, Concerns i a) : own acts i = common acts i := by
  induction acts using List.reverseRecOn with
  | nil => rfl
  | append_singleton acts a ih =>
    have ih := ih fun b hb => h b (List.mem_append_left _ hb)
    have ha := h a (by simp)
    simp only [own, common, Prod.mk.injEq] at ih ⊢
    simp only [ownLevel, ownPrefix, levelAt, prefixAt, lastAct_snoc] at ih ⊢
    cases a with
    | act op e => exact ih
    | setLoggerLevel j v => have : j = i := ha; subst this; simp only [if_true]; exact ⟨rfl, ih.2⟩
    | setLoggerPrefix j v => have : j = i := ha; subst this; simp only [if_true]; exact ⟨ih.1, rfl⟩
    | setStream os => exact ih
    | resetLog => exact ⟨rfl, rfl⟩

/-- only steps on controllers write messages -/
theorem quiet {sp : Speaker k} {w : LogWorld k} {a : LAct k} {r} (h : w.step sp a = .ok r) :
    (∃ op e, a = .act op e) ∨ r.2.2 = [] := by
  cases a with
  | act op e => exact .inl ⟨op, e, rfl⟩
  | setLoggerLevel i v =>
    simp only [LogWorld.step, bind_eq_ok] at h
    obtain ⟨_, -, _, -, h⟩ := h
    cases h; exact .inr rfl
  | setLoggerPrefix i v =>
    simp only [LogWorld.step, bind_eq_ok] at h
    obtain ⟨_, -, _, -, h⟩ := h
    cases h; exact .inr rfl
  | setStream os =>
    simp only [LogWorld.step, bind_eq_ok] at h
    obtain ⟨_, -, h⟩ := h
    cases h; exact .inr rfl
  | resetLog =>
    simp only [LogWorld.step, bind_eq_ok] at h
    obtain ⟨_, -, h⟩ := h
    cases h; exact .inr rfl

theorem textBy_single {i : Nat} {sp : Speaker k} : ∀ {acts before : List (LAct k)} {w w' : LogWorld k} {outs},
    (∀ a ∈ before, Concerns i a) → (∀ a ∈ acts, Concerns i a) → w.run sp acts = .ok (w', outs) →
    ∀ s, textBy own s before (spoken acts outs) = textBy common s before (spoken acts outs) := by
  intro acts
  induction acts with
  | nil => intro before w w' outs hb ha h s; rfl
  | cons a acts ih =>
    intro before w w' outs hb ha h s
    simp only [LogWorld.run, bind_eq_ok] at h
    obtain ⟨r, h1, q, h2, h3⟩ := h
    cases h3
    have ht := ih (before := before ++ [a]) (by
      intro b hm
      rcases List.mem_append.1 hm with hm | hm
      · exact hb b hm
      · rw [List.mem_singleton.1 hm]; exact ha a (by simp)) (fun b hm => ha b (List.mem_cons_of_mem _ hm)) h2 s
    show (if _ then shown (own before (actOn a)).1 (own before (actOn a)).2 r.2.2 else "") ++ textBy own s (before ++ [a]) (spoken acts q.2)
      = (if _ then shown (common before (actOn a)).1 (common before (actOn a)).2 r.2.2 else "") ++ textBy common s (before ++ [a]) (spoken acts q.2)
    rw [ht]
    rcases quiet h1 with ⟨op, e, rfl⟩ | hq
    · have : subject op = i := ha (.act op e) (by simp)
      rw [show actOn (LAct.act op e) = i from this, own_common hb]
    · rw [hq]; rfl

/-- C91, partial: programs with one controller meet the claim. -/
theorem c91_single_partial {sp : Speaker k} {acts : List (LAct k)} {w : LogWorld k} {outs} {i : Nat}
    (hc : ∀ a ∈ acts, Concerns i a) (h : (LogWorld.empty k).run sp acts = .ok (w, outs)) (s : Nat) :
    w.log.text s = textBy own s [] (spoken acts outs) := by
  rw [c91_text_partial h, textBy_single (by simp) hc h]

/-- C91: whatever is logged and however, every call returns what it would without, and the controllers end in the same state. -/
theorem c91_transparent {sp : Speaker k} : ∀ {acts : List (LAct k)} {w w' : LogWorld k} {outs},
    w.run sp acts = .ok (w', outs) → w.world.run (programOf acts) = .ok (w'.world, returnsOf acts outs) := by
  intro acts
  induction acts with
  | nil => intro w w' outs h; cases h; rfl
  | cons a acts ih =>
    intro w w' outs h
    simp only [LogWorld.run, bind_eq_ok] at h
    obtain ⟨r, h1, q, h2, h3⟩ := h
    cases h3
    have ht := ih h2
    cases a with
    | act op e =>
      simp only [LogWorld.step, bind_eq_ok] at h1
      obtain ⟨p, hp, l, -, h1⟩ := h1
      cases h1
      simp only [programOf, returnsOf, World.run, hp, ok_bind]
      simp only at ht
      rw [ht]
      rfl
    | setLoggerLevel i v =>
      simp only [LogWorld.step, bind_eq_ok] at h1
      obtain ⟨_, -, _, -, h1⟩ := h1
      cases h1; exact ht
    | setLoggerPrefix i v =>
      simp only [LogWorld.step, bind_eq_ok] at h1
      obtain ⟨_, -, _, -, h1⟩ := h1
      cases h1; exact ht
    | setStream os =>
      simp only [LogWorld.step, bind_eq_ok] at h1
      obtain ⟨_, -, h1⟩ := h1
      cases h1; exact ht
    | resetLog =>
      simp only [LogWorld.step, bind_eq_ok] at h1
      obtain ⟨_, -, h1⟩ := h1
      cases h1; exact ht

/-- an action on the logger alone -/
theorem set_total {sp : Speaker k} {w : LogWorld k} {a : LAct k} (ha : ∀ op e, a ≠ .act op e)
    (hi : ∀ i, settingOn a = some i → (w.world.objs i).isSome) (hs : w.log.os ≠ none) (hn : a ≠ .setStream none) :
    ∃ l, w.step sp a = .ok (⟨w.world, l⟩, none, []) ∧ l.os ≠ none := by
  cases a with
  | act op e => exact absurd rfl (ha op e)
  | setLoggerLevel i v =>
    obtain ⟨o, ho⟩ := Option.isSome_iff_exists.1 (hi i rfl)
    exact ⟨{ w.log with thresholdLevel := v }, by simp only [LogWorld.step, World.obj, ho, ok_bind, Logger.step]; rfl, hs⟩
  | setLoggerPrefix i v =>
    obtain ⟨o, ho⟩ := Option.isSome_iff_exists.1 (hi i rfl)
    exact ⟨{ w.log with pfx := v }, by simp only [LogWorld.step, World.obj, ho, ok_bind, Logger.step]; rfl, hs⟩
  | setStream os =>
    refine ⟨{ w.log with os := os }, rfl, ?_⟩
    intro h
    exact hn (congrArg LAct.setStream h)
  | resetLog => exact ⟨w.log.resetImpl, rfl, hs⟩

/-- C91: a program runs with logging if it runs without, as long as the stream is not null and the level and the prefix are set
on live controllers. -/
theorem c91_runs {sp : Speaker k} : ∀ {acts : List (LAct k)} {w : LogWorld k} {q}, w.world.run (programOf acts) = .ok q →
    w.log.os ≠ none → (∀ a ∈ acts, a ≠ .setStream none) →
    (∀ pre a post i, acts = pre ++ a :: post → settingOn a = some i →
      ∀ v outs, w.world.run (programOf pre) = .ok (v, outs) → (v.objs i).isSome) →
    ∃ l outs, w.run sp acts = .ok (⟨q.1, l⟩, outs) ∧ returnsOf acts outs = q.2 := by
  intro acts
  induction acts with
  | nil => intro w q h _ _ _; cases h; exact ⟨_, _, rfl, rfl⟩
  | cons a acts ih =>
    intro w q h hs hn hl
    have hn' : ∀ b ∈ acts, b ≠ LAct.setStream none := fun b hb => hn b (List.mem_cons_of_mem _ hb)
    by_cases ha : ∃ op e, a = .act op e
    · obtain ⟨op, e, rfl⟩ := ha
      simp only [programOf, World.run, bind_eq_ok] at h
      obtain ⟨r, hr, t, ht, h⟩ := h
      cases h
      obtain ⟨l, f, ho⟩ := LogWorld.step_total (sp := sp) (e := e) hr hs
      obtain ⟨l', outs, g, hg⟩ := ih (w := ⟨r.1, l⟩) ht (by rw [ho]; exact hs) hn' (by
        intro pre b post i he hb v outs hv
        refine hl (.act op e :: pre) b post i (by rw [he]; rfl) hb v (r.2 :: outs) ?_
        simp only [programOf, World.run, hr, ok_bind]
        rw [show r.1.run (programOf pre) = _ from hv]
        rfl)
      refine ⟨l', _, by simp only [LogWorld.run, f, ok_bind, g]; rfl, ?_⟩
      simp only [returnsOf, hg]
    · have hp : ∀ xs, programOf (a :: xs) = programOf xs := fun xs => by
        cases a with
        | act op e => exact absurd ⟨op, e, rfl⟩ ha
        | _ => rfl
      obtain ⟨l, f, ho⟩ := set_total (sp := sp) (w := w) (a := a) (fun op e he => ha ⟨op, e, he⟩)
        (fun i hi => hl [] a acts i rfl hi _ _ rfl) hs (hn a (by simp))
      rw [hp] at h
      obtain ⟨l', outs, g, hg⟩ := ih (w := ⟨w.world, l⟩) h ho hn' (by
        intro pre b post i he hb v outs hv
        exact hl (a :: pre) b post i (by rw [he]; rfl) hb v outs (by rw [hp]; exact hv))
      refine ⟨l', (none, []) :: outs, by simp only [LogWorld.run, f, ok_bind, g]; rfl, ?_⟩
      rw [← hg]
      cases a with
      | act op e => exact absurd ⟨op, e, rfl⟩ ha
      | _ => rfl

/-- C91: at level NONE nothing is written, whatever the steps. -/
theorem c91_none {sp : Speaker k} {acts more : List (LAct k)} {w w' : LogWorld k} {outs outs'}
    (h : (LogWorld.empty k).run sp acts = .ok (w, outs)) (h' : w.run sp more = .ok (w', outs'))
    (hl : levelAt acts = .NONE) (hm : ∀ a ∈ more, (∃ op e, a = .act op e) ∨ ∃ s, a = .setStream s) (s : Nat) :
    w'.log.text s = w.log.text s := by
  have key : ∀ {more before : List (LAct k)} {xs : List (Option k.Out × List Msg)}, levelAt before = .NONE →
      (∀ a ∈ more, (∃ op e, a = .act op e) ∨ ∃ s, a = .setStream s) → textBy common s before (spoken more xs) = "" := by
    intro more
    induction more with
    | nil => intro before xs _ _; rfl
    | cons a more ih =>
      intro before xs hb ha
      cases xs with
      | nil => rfl
      | cons x xs =>
        have hs : ∀ (p : String) (ms : List Msg), shown .NONE p ms = "" := by
          intro p ms
          induction ms with
          | nil => rfl
          | cons m ms ih => simp only [shown, ih, visible]; rfl
        have hn : levelAt (before ++ [a]) = .NONE := by
          unfold levelAt at hb ⊢
          rw [lastAct_snoc]
          rcases ha a (by simp) with ⟨op, e, rfl⟩ | ⟨t, rfl⟩ <;> exact hb
        have := ih (xs := xs) hn fun b hm => ha b (List.mem_cons_of_mem _ hm)
        show (if _ then shown (levelAt before) _ _ else "") ++ textBy common s (before ++ [a]) (spoken more xs) = ""
        rw [hb, hs, this]
        simp
  rw [(run_text (run_text inForce_new h).1 h').2 s, List.nil_append, key hl hm]
  simp

/-- C91 is violated: after the second of two controllers has set its own level to NONE, the first one no longer explains why a
call is refused. -/
theorem c91_settings_violated : ∃ num, ¬ C91Claim (linearSpeaker ℚ num) := by
  refine ⟨fun _ => "", fun hc => ?_⟩
  obtain ⟨a, m0, w, hd, hr, ho, h0, h1, h2, -⟩ := two_linear fun _ => ""
  obtain ⟨l, f, -⟩ := set_total (sp := linearSpeaker ℚ fun _ => "") (w := w) (a := .setLoggerLevel 1 .NONE)
    (by intro op e h; cases h) (by intro i hi; cases hi; rw [h2]; rfl) (by rw [ho]; intro h; cases h) (by intro h; cases h)
  have hl : l.os = some 0 := by
    have : InForce l _ := (act_text (run_text inForce_new hr).1 f).1
    rw [this.os]; rfl
  have r1 := LogWorld.run_snoc hr f
  obtain ⟨w', ms, g⟩ := linear_call (num := fun _ => "") (w := ⟨w.world, l⟩) (m := m0) (m' := m0) (out := .bool false)
    (op := .setScalarConstraintAt 7 (.fin 0) (.fin 0) (cvec 2 0) (cvec 1 0)) {} h0 h1 hl (by
      show LMpc.setScalarConstraintAt _ _ _ _ _ _ = _
      unfold LMpc.setScalarConstraintAt
      rw [if_pos (by rw [hd]; decide)]
      rfl)
  have r2 := LogWorld.run_snoc r1 g
  have h3 : errors ms = [⟨.ERROR, indexText⟩] := (c90_linear_partial g (fun h => h)).1 rfl
  have e1 := c91_text_partial r2 0
  rw [hc _ _ _ r2 0] at e1
  have hm : ms = [⟨.ERROR, indexText⟩] := by
    rcases linear_messages g (fun h => h) with ⟨h, -⟩ | ⟨-, h⟩
    · exact absurd rfl h
    · exact h
  subst hm
  simp [spoken, textBy, own, common, ownLevel, ownPrefix, levelAt, prefixAt, streamAt, lastAct, actOn, subject, shown, visible,
    tag, indexText] at e1

/-- Non-vacuity: a program with one controller which chooses a level, is refused a call and says so. -/
example : ∃ (acts : List (LAct (linearKind ℚ))) (w : LogWorld (linearKind ℚ)) (outs : _),
    (∀ a ∈ acts, Concerns 0 a) ∧ (LogWorld.empty _).run (linearSpeaker ℚ fun _ => "") acts = .ok (w, outs) ∧
    w.log.text 0 = "[MPC++ a] Horizon index out of bounds\n" := by
  obtain ⟨m, m', r, call, ha⟩ := sample_asked 1 0 none
  obtain ⟨uninit, junk, m0, h0, -⟩ := ha.built
  have hd : m0.d = sampleDims := by
    unfold LMpc.new at h0
    simp only [bind_eq_ok] at h0
    obtain ⟨b, -, h0⟩ := h0
    cases h0
    rfl
  have hb := linearKind_build (a := (sampleDims, uninit, junk)).2 ⟨m0, h0, rfl⟩
  have e1 := World.step_create (w := World.empty (linearKind ℚ)) (i := 0) rfl hb
  obtain ⟨l1, f1, o1⟩ := LogWorld.step_total (sp := linearSpeaker ℚ fun _ => "") (e := {}) (w := LogWorld.empty (linearKind ℚ)) e1 (by
    intro h; cases h)
  have g1 := LogWorld.run_snoc (acts := []) (outs := []) (w := LogWorld.empty (linearKind ℚ)) rfl f1
  generalize hw : (⟨World.set (World.empty (linearKind ℚ)).objs 0 (some ⟨(m0.d, m0.b), 0⟩),
    World.set (World.empty (linearKind ℚ)).heap 0 (some ⟨m0.o, 0⟩), 1⟩ : World (linearKind ℚ)) = v at *
  have g1 : (LogWorld.empty (linearKind ℚ)).run (linearSpeaker ℚ fun _ => "") [.act (.create 0 (sampleDims, uninit, junk)) {}] =
    .ok (⟨v, l1⟩, [(none, [])]) := by rw [← hw]; exact g1
  have v0 : v.objs 0 = some ⟨(m0.d, m0.b), 0⟩ := by rw [← hw]; rfl
  have v1 : v.heap 0 = some ⟨m0.o, 0⟩ := by rw [← hw]; rfl
  have vs : (v.objs 0).isSome := by rw [v0]; rfl
  obtain ⟨l2, f2, o2⟩ := set_total (sp := linearSpeaker ℚ fun _ => "") (w := ⟨v, l1⟩) (a := .setLoggerLevel 0 .ALERT)
    (by intro op e h; cases h) (by intro i hi; cases hi; exact vs) (by rw [o1]; intro h; cases h) (by intro h; cases h)
  have g2 := LogWorld.run_snoc g1 f2
  obtain ⟨l3, f3, o3⟩ := set_total (sp := linearSpeaker ℚ fun _ => "") (w := ⟨v, l2⟩) (a := .setLoggerPrefix 0 "a")
    (by intro op e h; cases h) (by intro i hi; cases hi; exact vs) o2 (by intro h; cases h)
  have g3 := LogWorld.run_snoc g2 f3
  have hl : l3.os = some 0 := by
    have := (run_text inForce_new g3).1.os
    exact this
  obtain ⟨w', ms, g⟩ := linear_call (num := fun _ => "") (w := ⟨v, l3⟩) (m := m0) (m' := m0) (out := .bool false)
    (op := .setScalarConstraintAt 7 (.fin 0) (.fin 0) (cvec 2 0) (cvec 1 0)) {} v0 v1 hl (by
      show LMpc.setScalarConstraintAt _ _ _ _ _ _ = _
      unfold LMpc.setScalarConstraintAt
      rw [if_pos (by rw [hd]; decide)]
      rfl)
  have g4 := LogWorld.run_snoc g3 g
  have hm : ms = [⟨.ERROR, indexText⟩] := by
    rcases linear_messages g (fun h => h) with ⟨h, -⟩ | ⟨-, h⟩
    · exact absurd rfl h
    · exact h
  subst hm
  have ht := c91_text_partial g4 0
  refine ⟨_, w', _, ?_, g4, ht.trans (by
    simp [spoken, textBy, common, levelAt, prefixAt, streamAt, lastAct, shown, visible, tag, indexText])⟩
  intro a ha
  simp only [List.nil_append, List.cons_append, List.mem_cons, List.not_mem_nil, or_false] at ha
  rcases ha with rfl | rfl | rfl | rfl
  · exact rfl
  · exact rfl
  · exact rfl
  · exact rfl

end Props
end Mpc
