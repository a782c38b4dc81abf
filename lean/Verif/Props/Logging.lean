import Mathlib.Tactic.SplitIfs
import Mathlib.Data.List.Induction
import Verif.Spec.Log

/-
C29, C30: the logger, for every history of its operations.
-/
namespace Mpc
open Mpc.Spec Mpc.Logger

theorem lastOf_snoc {α : Type} (f : Op → Option α) (d : α) (ops : List Op) (op : Op) :
    lastOf f d (ops ++ [op]) = (f op).getD (lastOf f d ops) := by
  unfold lastOf
  rw [List.reverse_append, List.reverse_singleton, List.singleton_append, List.findSome?_cons]
  cases f op <;> rfl

theorem writtenFrom_snoc (s : Nat) (op : Op) (ops : List Op) : ∀ before, writtenFrom s before (ops ++ [op]) =
    writtenFrom s before ops ++ (if streamIn (before ++ ops) = some s then piece (before ++ ops) op else "") := by
  induction ops with
  | nil => intro before; simp [writtenFrom]
  | cons o ops ih =>
    intro before
    simp only [List.cons_append, writtenFrom, ih, List.append_assoc, List.nil_append]
    rw [String.append_assoc]

theorem written_snoc (s : Nat) (ops : List Op) (op : Op) : written s (ops ++ [op]) =
    written s ops ++ (if streamIn ops = some s then piece ops op else "") := writtenFrom_snoc s op ops []

theorem exec_snoc' (ops : List Op) (op : Op) : ∀ l : Logger, l.exec (ops ++ [op]) = (l.exec ops >>= fun q => q.step op) := by
  induction ops with
  | nil =>
    intro l
    simp only [List.nil_append, exec, Exec.ok_bind]
    cases l.step op <;> rfl
  | cons o ops ih =>
    intro l
    simp only [List.cons_append, exec]
    cases l.step o with
    | error e => rfl
    | ok q => exact ih q

/-- what is known about the logger after a history -/
structure LogInv (l : Logger) (ops : List Op) : Prop where
  os : l.os = streamIn ops
  pfx : l.pfx = prefixIn ops
  level : l.thresholdLevel = levelIn ops
  type : l.currentType = typeIn ops
  text : ∀ s, l.text s = written s ops

theorem visible_iff (v : LogLevel) (t : LogType) : v.toInt ≤ t.toInt ↔ visible v t = true := by
  cases v <;> cases t <;> simp [LogLevel.toInt, LogType.toInt, visible]

theorem write_text {l l' : Logger} {x : String} (h : l.write x = .ok l') :
    l' = { l with text := fun s => if l.os = some s then l.text s ++ x else l.text s } := by
  unfold write at h
  cases ho : l.os with
  | none => rw [ho] at h; cases h
  | some i =>
    rw [ho] at h
    cases h
    congr
    funext s
    simp only [Option.some.injEq, eq_comm]

theorem log_text {l l' : Logger} {t : LogType} (h : l.log t = .ok l') :
    l' = { l with currentType := t, text := fun s =>
      if l.os = some s ∧ visible l.thresholdLevel t = true then l.text s ++ tag l.pfx else l.text s } := by
  unfold Logger.log at h
  simp only at h
  by_cases hv : visible l.thresholdLevel t = true
  · rw [if_pos ((visible_iff _ _).2 hv)] at h
    simp only [Exec.bind_eq_ok] at h
    obtain ⟨l1, h1, h2⟩ := h
    have e1 := write_text h1
    subst e1
    simp only at h2
    by_cases hp : l.pfx = ""
    · rw [if_neg (by simp [hp])] at h2
      rw [write_text h2]
      simp only [hv, and_true]
      congr
      funext s
      split_ifs
      · rw [String.append_assoc, tag, if_pos hp]; rfl
      · rfl
    · rw [if_pos (by simp [hp])] at h2
      simp only [Exec.bind_eq_ok] at h2
      obtain ⟨l2, h3, l3, h4, h5⟩ := h2
      have e2 := write_text h3
      subst e2
      have e3 := write_text h4
      subst e3
      rw [write_text h5]
      simp only [hv, and_true]
      congr
      funext s
      split_ifs
      · rw [tag, if_neg hp]; simp only [String.append_assoc]; rfl
      · rfl
  · rw [if_neg (mt (visible_iff _ _).1 hv)] at h
    cases h
    simp [hv]

theorem stream_text {l l' : Logger} {x : String} (h : l.stream x = .ok l') :
    l' = { l with text := fun s =>
      if l.os = some s ∧ visible l.thresholdLevel l.currentType = true then l.text s ++ x else l.text s } := by
  unfold Logger.stream at h
  by_cases hv : visible l.thresholdLevel l.currentType = true
  · rw [if_pos ((visible_iff _ _).2 hv)] at h
    rw [write_text h]
    simp [hv]
  · rw [if_neg (mt (visible_iff _ _).1 hv)] at h
    cases h
    simp [hv]

theorem exec_logInv (ops : List Op) {l : Logger} (h : Logger.new.exec ops = .ok l) : LogInv l ops := by
  induction ops using List.reverseRecOn generalizing l with
  | nil => cases h; exact ⟨rfl, rfl, rfl, rfl, fun _ => rfl⟩
  | append_singleton ops op ih =>
    rw [exec_snoc', Exec.bind_eq_ok] at h
    obtain ⟨q, h1, h2⟩ := h
    obtain ⟨a1, a2, a3, a4, a5⟩ := ih h1
    cases op with
    | reset =>
      cases h2
      refine ⟨?_, ?_, ?_, ?_, fun s => ?_⟩
      · rw [streamIn, lastOf_snoc]; exact a1
      · rw [prefixIn, lastOf_snoc]; rfl
      · rw [levelIn, lastOf_snoc]; rfl
      · rw [typeIn, lastOf_snoc]; exact a4
      · rw [written_snoc]; simp [piece, resetImpl, a5]
    | setStream os =>
      cases h2
      refine ⟨?_, ?_, ?_, ?_, fun s => ?_⟩
      · rw [streamIn, lastOf_snoc]; rfl
      · rw [prefixIn, lastOf_snoc]; exact a2
      · rw [levelIn, lastOf_snoc]; exact a3
      · rw [typeIn, lastOf_snoc]; exact a4
      · rw [written_snoc]; simp [piece, a5]
    | setLevel v =>
      cases h2
      refine ⟨?_, ?_, ?_, ?_, fun s => ?_⟩
      · rw [streamIn, lastOf_snoc]; exact a1
      · rw [prefixIn, lastOf_snoc]; exact a2
      · rw [levelIn, lastOf_snoc]; rfl
      · rw [typeIn, lastOf_snoc]; exact a4
      · rw [written_snoc]; simp [piece, a5]
    | setPrefix p =>
      cases h2
      refine ⟨?_, ?_, ?_, ?_, fun s => ?_⟩
      · rw [streamIn, lastOf_snoc]; exact a1
      · rw [prefixIn, lastOf_snoc]; rfl
      · rw [levelIn, lastOf_snoc]; exact a3
      · rw [typeIn, lastOf_snoc]; exact a4
      · rw [written_snoc]; simp [piece, a5]
    | log t =>
      rw [log_text h2]
      refine ⟨?_, ?_, ?_, ?_, fun s => ?_⟩
      · rw [streamIn, lastOf_snoc]; exact a1
      · rw [prefixIn, lastOf_snoc]; exact a2
      · rw [levelIn, lastOf_snoc]; exact a3
      · rw [typeIn, lastOf_snoc]; rfl
      · rw [written_snoc]
        simp only [piece, a5, a1, a2, a3]
        by_cases hs : streamIn ops = some s <;> by_cases hv : visible (levelIn ops) t = true <;> simp [hs, hv]
    | stream x =>
      rw [stream_text h2]
      refine ⟨?_, ?_, ?_, ?_, fun s => ?_⟩
      · rw [streamIn, lastOf_snoc]; exact a1
      · rw [prefixIn, lastOf_snoc]; exact a2
      · rw [levelIn, lastOf_snoc]; exact a3
      · rw [typeIn, lastOf_snoc]; exact a4
      · rw [written_snoc]
        simp only [piece, a5, a1, a3, a4]
        by_cases hs : streamIn ops = some s <;> by_cases hv : visible (levelIn ops) (typeIn ops) = true <;> simp [hs, hv]

/-- logging does not fail while the stream is not null -/
theorem exec_total : ∀ (ops : List Op) (l : Logger), l.os ≠ none → Op.setStream none ∉ ops → ∃ l', l.exec ops = .ok l' := by
  have hwr : ∀ (l : Logger) x, l.os ≠ none → ∃ l', l.write x = .ok l' ∧ l'.os = l.os := by
    intro l x ho
    unfold write
    cases h : l.os with
    | none => exact absurd h ho
    | some i => exact ⟨_, rfl, rfl⟩
  intro ops
  induction ops with
  | nil => intro l _ _; exact ⟨l, rfl⟩
  | cons op ops ih =>
    intro l ho hs
    have hs1 : Op.setStream none ∉ ops := fun h => hs (List.mem_cons_of_mem _ h)
    suffices hst : ∃ l', l.step op = .ok l' ∧ l'.os ≠ none by
      obtain ⟨l', h1, h2⟩ := hst
      obtain ⟨l'', h3⟩ := ih l' h2 hs1
      exact ⟨l'', by simp only [exec, h1, Exec.ok_bind]; exact h3⟩
    cases op with
    | reset => exact ⟨_, rfl, ho⟩
    | setLevel v => exact ⟨_, rfl, ho⟩
    | setPrefix v => exact ⟨_, rfl, ho⟩
    | setStream os =>
      refine ⟨_, rfl, ?_⟩
      rintro h
      exact hs (by simp only at h; rw [h]; exact List.mem_cons_self)
    | stream x =>
      simp only [step, Logger.stream]
      split_ifs
      · obtain ⟨l', h1, h2⟩ := hwr l x ho
        exact ⟨l', h1, h2 ▸ ho⟩
      · exact ⟨l, rfl, ho⟩
    | log t =>
      simp only [step, Logger.log]
      split_ifs
      · obtain ⟨l1, h1, o1⟩ := hwr { l with currentType := t } "[MPC++" ho
        rw [h1, Exec.ok_bind]
        have ho1 : l1.os ≠ none := by rw [o1]; exact ho
        split_ifs
        · obtain ⟨l2, h2, o2⟩ := hwr l1 " " ho1
          rw [h2, Exec.ok_bind]
          obtain ⟨l3, h3, o3⟩ := hwr l2 l2.pfx (by rw [o2]; exact ho1)
          rw [h3, Exec.ok_bind]
          obtain ⟨l4, h4, o4⟩ := hwr l3 "] " (by rw [o3, o2]; exact ho1)
          exact ⟨l4, h4, by rw [o4, o3, o2]; exact ho1⟩
        · obtain ⟨l4, h4, o4⟩ := hwr l1 "] " ho1
          exact ⟨l4, h4, by rw [o4]; exact ho1⟩
      · exact ⟨_, rfl, ho⟩

namespace Props

/-- C29. After any history every stream holds exactly the pieces that were visible when streamed, each visible `log` call
being preceded by the tag. -/
theorem c29_text (ops : List Op) {l : Logger} (h : Logger.new.exec ops = .ok l) (s : Nat) : l.text s = written s ops :=
  (exec_logInv ops h).text s

/-- C29. Logging never fails unless a null stream was set. -/
theorem c29_total (ops : List Op) (hs : Op.setStream none ∉ ops) : ∃ l, Logger.new.exec ops = .ok l := by
  exact exec_total ops _ (by simp [Logger.new, resetImpl]) hs

/-- C29. While the level is NONE nothing is written, whatever is logged. -/
theorem c29_none (before ops : List Op) {l l' : Logger} (h : Logger.new.exec (before ++ [.setLevel .NONE]) = .ok l)
    (hl : ∀ op ∈ ops, op ≠ .reset ∧ ∀ v, op ≠ .setLevel v)
    (h' : Logger.new.exec (before ++ [.setLevel .NONE] ++ ops) = .ok l') (s : Nat) : l'.text s = l.text s := by
  have hlev : ∀ ops : List Op, (∀ op ∈ ops, op ≠ .reset ∧ ∀ v, op ≠ .setLevel v) →
      levelIn (before ++ [.setLevel .NONE] ++ ops) = .NONE := by
    intro ops hl
    induction ops using List.reverseRecOn with
    | nil => rw [List.append_nil, levelIn, lastOf_snoc]; rfl
    | append_singleton ops op ih =>
      have hop := hl op (by simp)
      have := ih fun o ho => hl o (List.mem_append_left _ ho)
      rw [← List.append_assoc, levelIn, lastOf_snoc]
      cases op with
      | reset => exact absurd rfl hop.1
      | setLevel v => exact absurd rfl (hop.2 v)
      | _ => exact this
  rw [c29_text _ h', c29_text _ h]
  clear h h'
  induction ops using List.reverseRecOn with
  | nil => rw [List.append_nil]
  | append_singleton ops op ih =>
    have hl1 : ∀ op ∈ ops, op ≠ .reset ∧ ∀ v, op ≠ .setLevel v := fun o ho => hl o (List.mem_append_left _ ho)
    rw [← List.append_assoc, written_snoc, ih hl1]
    have : piece (before ++ [.setLevel .NONE] ++ ops) op = "" := by
      unfold piece
      have hv := hlev ops hl1
      cases op <;> simp only [hv] <;> simp [visible]
    rw [this]
    split_ifs <;> simp

/-- a message of each type at each level, with a prefix -/
def logSample : List Op :=
  [.setPrefix "arm", .log .INFO, .stream "a", .setLevel .ALERT, .stream "b", .log .ERROR, .stream "c", .reset, .log .INFO, .stream "d"]

example : ∃ l, Logger.new.exec logSample = .ok l ∧ l.text 0 = "[MPC++ arm] a[MPC++ arm] c[MPC++] d" := by
  obtain ⟨l, hl⟩ := c29_total logSample (by simp [logSample])
  refine ⟨l, hl, ?_⟩
  rw [c29_text _ hl]
  simp [written, writtenFrom, logSample, piece, streamIn, levelIn, typeIn, prefixIn, lastOf, visible, tag]

/-- C30. `reset` restores prefix and level, keeps the stream, the type of the message under construction and everything
written. -/
theorem c30_reset (l : Logger) : ∃ l', l.step .reset = .ok l' ∧ l'.pfx = "" ∧ l'.thresholdLevel = .NORMAL ∧ l'.os = l.os ∧
    l'.currentType = l.currentType ∧ l'.text = l.text := ⟨_, rfl, rfl, rfl, rfl, rfl, rfl⟩

/-- C30. `reset` is idempotent. -/
theorem c30_idempotent (l : Logger) : l.exec [.reset, .reset] = l.exec [.reset] := rfl

/-- C30. After a `reset` later output does not depend on the levels and prefixes set before it: a logger with the same
stream and text writes the same. -/
theorem c30_forgets (l : Logger) (v : LogLevel) (p : String) (ops : List Op) :
    l.exec (.reset :: ops) = Logger.exec { l with thresholdLevel := v, pfx := p } (.reset :: ops) := rfl

example : ∃ l, Logger.new.exec [.setPrefix "arm", .setLevel .ALERT] = .ok l ∧ l.pfx = "arm" ∧ l.thresholdLevel = .ALERT :=
  ⟨_, rfl, rfl, rfl⟩

end Props
end Mpc
