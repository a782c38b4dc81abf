import Verif.Spec.Messages
import Verif.Props.Logging

/-
The logger of a program with several controllers.
-/
namespace Mpc
open Mpc.Spec Exec

variable {k : Kind}

theorem lastAct_snoc {α : Type} (f : LAct k → Option α) (d : α) (acts : List (LAct k)) (a : LAct k) :
    lastAct f d (acts ++ [a]) = (f a).getD (lastAct f d acts) := by
  unfold lastAct
  rw [List.reverse_append, List.reverse_singleton, List.singleton_append, List.findSome?_cons]
  cases f a <;> rfl

/-- one message -/
theorem say_one {l l' : Logger} {m : Msg} (h : l.exec m.ops = .ok l') : l'.os = l.os ∧ l'.pfx = l.pfx ∧
    l'.thresholdLevel = l.thresholdLevel ∧ ∀ s, l'.text s =
      if l.os = some s then l.text s ++ (if visible l.thresholdLevel m.type then tag l.pfx ++ m.text else "") else l.text s := by
  simp only [Msg.ops, Logger.exec, Logger.step, bind_eq_ok] at h
  obtain ⟨l1, h1, l2, h2, h3⟩ := h
  cases h3
  have e1 := log_text h1
  subst e1
  have e2 := stream_text h2
  subst e2
  refine ⟨rfl, rfl, rfl, fun s => ?_⟩
  by_cases hs : l.os = some s <;> by_cases hv : visible l.thresholdLevel m.type = true <;>
    simp [hs, hv, String.append_assoc]

theorem exec_append (l : Logger) (xs ys : List Logger.Op) : l.exec (xs ++ ys) = (l.exec xs >>= fun q => q.exec ys) := by
  induction xs generalizing l with
  | nil => rfl
  | cons x xs ih =>
    simp only [List.cons_append, Logger.exec]
    cases l.step x with
    | error e => rfl
    | ok q => exact ih q

/-- several messages -/
theorem say_all {ms : List Msg} : ∀ {l l' : Logger}, l.exec (ms.flatMap Msg.ops) = .ok l' → l'.os = l.os ∧ l'.pfx = l.pfx ∧
    l'.thresholdLevel = l.thresholdLevel ∧ ∀ s, l'.text s =
      if l.os = some s then l.text s ++ shown l.thresholdLevel l.pfx ms else l.text s := by
  induction ms with
  | nil =>
    intro l l' h
    cases h
    exact ⟨rfl, rfl, rfl, fun s => by simp [shown]⟩
  | cons m ms ih =>
    intro l l' h
    rw [List.flatMap_cons, exec_append, bind_eq_ok] at h
    obtain ⟨q, h1, h2⟩ := h
    obtain ⟨a1, a2, a3, a4⟩ := say_one h1
    obtain ⟨b1, b2, b3, b4⟩ := ih h2
    refine ⟨b1.trans a1, b2.trans a2, b3.trans a3, fun s => ?_⟩
    rw [b4, a4, a1, a2, a3]
    by_cases hs : l.os = some s <;> simp [hs, shown, String.append_assoc]

/-- the logger has the settings in force after some actions -/
structure InForce (l : Logger) (acts : List (LAct k)) : Prop where
  os : l.os = streamAt acts
  pfx : l.pfx = prefixAt acts
  level : l.thresholdLevel = levelAt acts

theorem inForce_new : InForce Logger.new ([] : List (LAct k)) := ⟨rfl, rfl, rfl⟩

/-- one action -/
theorem act_text {sp : Speaker k} {w : LogWorld k} {a : LAct k} {r : LogWorld k × Option k.Out × List Msg}
    {before : List (LAct k)} (hw : InForce w.log before) (h : w.step sp a = .ok r) : InForce r.1.log (before ++ [a]) ∧
      ∀ s, r.1.log.text s = w.log.text s ++
        (if streamAt before = some s then shown (levelAt before) (prefixAt before) r.2.2 else "") := by
  cases a with
  | act op e =>
    simp only [LogWorld.step, bind_eq_ok] at h
    obtain ⟨q, _, l, hl, h⟩ := h
    cases h
    obtain ⟨a1, a2, a3, a4⟩ := say_all hl
    refine ⟨⟨?_, ?_, ?_⟩, fun s => ?_⟩
    · rw [streamAt, lastAct_snoc]; exact a1.trans hw.os
    · rw [prefixAt, lastAct_snoc]; exact a2.trans hw.pfx
    · rw [levelAt, lastAct_snoc]; exact a3.trans hw.level
    · simp only
      rw [a4, hw.os, hw.pfx, hw.level]
      by_cases hs : streamAt before = some s <;> simp [hs]
  | setLoggerLevel i v =>
    simp only [LogWorld.step, Logger.step, bind_eq_ok] at h
    obtain ⟨q, _, l, hl, h⟩ := h
    cases hl
    cases h
    refine ⟨⟨?_, ?_, ?_⟩, fun s => ?_⟩
    · rw [streamAt, lastAct_snoc]; exact hw.os
    · rw [prefixAt, lastAct_snoc]; exact hw.pfx
    · rw [levelAt, lastAct_snoc]; rfl
    · simp [shown]
  | setLoggerPrefix i v =>
    simp only [LogWorld.step, Logger.step, bind_eq_ok] at h
    obtain ⟨q, _, l, hl, h⟩ := h
    cases hl
    cases h
    refine ⟨⟨?_, ?_, ?_⟩, fun s => ?_⟩
    · rw [streamAt, lastAct_snoc]; exact hw.os
    · rw [prefixAt, lastAct_snoc]; rfl
    · rw [levelAt, lastAct_snoc]; exact hw.level
    · simp [shown]
  | setStream os =>
    simp only [LogWorld.step, Logger.step, bind_eq_ok] at h
    obtain ⟨l, hl, h⟩ := h
    cases hl
    cases h
    refine ⟨⟨?_, ?_, ?_⟩, fun s => ?_⟩
    · rw [streamAt, lastAct_snoc]; rfl
    · rw [prefixAt, lastAct_snoc]; exact hw.pfx
    · rw [levelAt, lastAct_snoc]; exact hw.level
    · simp [shown]
  | resetLog =>
    simp only [LogWorld.step, Logger.step, bind_eq_ok] at h
    obtain ⟨l, hl, h⟩ := h
    cases hl
    cases h
    refine ⟨⟨?_, ?_, ?_⟩, fun s => ?_⟩
    · rw [streamAt, lastAct_snoc]; exact hw.os
    · rw [prefixAt, lastAct_snoc]; rfl
    · rw [levelAt, lastAct_snoc]; rfl
    · simp [shown, Logger.resetImpl]

/-- a program -/
theorem run_text {sp : Speaker k} : ∀ {acts before : List (LAct k)} {w w' : LogWorld k} {outs},
    InForce w.log before → w.run sp acts = .ok (w', outs) → InForce w'.log (before ++ acts) ∧
      ∀ s, w'.log.text s = w.log.text s ++ textBy common s before (spoken acts outs) := by
  intro acts
  induction acts with
  | nil =>
    intro before w w' outs hw h
    cases h
    exact ⟨by rw [List.append_nil]; exact hw, fun s => by simp [spoken, textBy]⟩
  | cons a acts ih =>
    intro before w w' outs hw h
    simp only [LogWorld.run, bind_eq_ok] at h
    obtain ⟨r, h1, q, h2, h3⟩ := h
    cases h3
    obtain ⟨b1, b2⟩ := act_text hw h1
    obtain ⟨c1, c2⟩ := ih b1 h2
    refine ⟨by rw [List.append_assoc] at c1; exact c1, fun s => ?_⟩
    rw [c2, b2, String.append_assoc]
    rfl

end Mpc
