import Verif.Props.Threads

/-
C100, continued: the memory the model says an operation accesses is all it changes and, for the logger, all it depends on.
-/
namespace Mpc.Props
open Mpc.Spec Exec World Threads

variable {k : Kind}

/-- the operation accesses this memory -/
def Touches (as : List Access) (x : Loc) : Prop := ∃ b, (⟨x, b⟩ : Access) ∈ as

/-- C100: a step on controllers changes only objects and optimizers it is recorded to write. -/
theorem c100_writes_controllers {w : World k} {op : WOp k} {r} (h : w.step op = .ok r) :
    (∀ i, (⟨.obj i, true⟩ : Access) ∉ w.touches op → r.1.objs i = w.objs i) ∧
    ∀ p, (⟨.opt p, true⟩ : Access) ∉ w.touches op → r.1.heap p = w.heap p := by
  cases op with
  | create i a =>
    simp only [World.step, bind_eq_ok] at h
    obtain ⟨-, -, q, -, h⟩ := h
    cases h
    exact ⟨fun j hj => set_ne (by rintro rfl; exact hj (by simp [touches])),
      fun p hp => set_ne (by rintro rfl; exact hp (by simp [touches]))⟩
  | copy i j =>
    simp only [World.step, bind_eq_ok] at h
    obtain ⟨o, -, -, -, -, -, h⟩ := h
    cases h
    exact ⟨fun l hl => set_ne (by rintro rfl; exact hl (by simp [touches])), fun _ _ => rfl⟩
  | assign i j =>
    simp only [World.step, bind_eq_ok] at h
    obtain ⟨o, -, -, -, -, -, h⟩ := h
    cases h
    exact ⟨fun l hl => set_ne (by rintro rfl; exact hl (by simp [touches])), fun _ _ => rfl⟩
  | call i op =>
    simp only [World.step, bind_eq_ok] at h
    obtain ⟨o, ho, c, hc, b, hb, q, -, h⟩ := h
    cases h
    rw [obj_ok] at ho
    rw [cell_ok] at hc
    refine ⟨fun l hl => set_ne ?_, fun p hp => set_ne ?_⟩
    · rintro rfl
      refine hl ?_
      cases hv : k.viaOwner op <;> simp [touches, ho, hc, hv]
    · rintro rfl
      refine hp ?_
      simp [touches, ho, hc]
  | destroy i =>
    simp only [World.step, bind_eq_ok] at h
    obtain ⟨o, ho, h⟩ := h
    rw [obj_ok] at ho
    by_cases hd : k.deletes o.body = true
    · rw [if_pos hd] at h
      simp only [bind_eq_ok] at h
      obtain ⟨-, -, h⟩ := h
      cases h
      exact ⟨fun l hl => set_ne (by rintro rfl; exact hl (by simp [touches])),
        fun p hp => set_ne (by rintro rfl; exact hp (by simp [touches, ho, hd]))⟩
    · rw [if_neg hd] at h
      cases h
      exact ⟨fun l hl => set_ne (by rintro rfl; exact hl (by simp [touches])), fun _ _ => rfl⟩

/-- C100: an operation on the logger changes only what it is recorded to write. -/
theorem c100_writes_logger {l l' : Logger} {op : Logger.Op} (h : l.step op = .ok l') :
    ((⟨.level, true⟩ : Access) ∉ l.touches op → l'.thresholdLevel = l.thresholdLevel) ∧
    ((⟨.pfx, true⟩ : Access) ∉ l.touches op → l'.pfx = l.pfx) ∧
    ((⟨.type, true⟩ : Access) ∉ l.touches op → l'.currentType = l.currentType) ∧
    ((⟨.os, true⟩ : Access) ∉ l.touches op → l'.os = l.os) ∧
    ∀ s, (⟨.stream s, true⟩ : Access) ∉ l.touches op → l'.text s = l.text s := by
  cases op with
  | log t =>
    have e := log_text h
    subst e
    refine ⟨fun _ => rfl, fun _ => rfl, fun hn => absurd (by simp [Logger.touches]) hn, fun _ => rfl, fun s hs => if_neg ?_⟩
    rintro ⟨h1, h2⟩
    refine hs ?_
    simp [Logger.touches, h1, (visible_iff _ _).2 h2]
  | stream x =>
    have e := stream_text h
    subst e
    refine ⟨fun _ => rfl, fun _ => rfl, fun _ => rfl, fun _ => rfl, fun s hs => if_neg ?_⟩
    rintro ⟨h1, h2⟩
    refine hs ?_
    simp [Logger.touches, h1, (visible_iff _ _).2 h2]
  | reset =>
    cases h
    exact ⟨fun hn => absurd (by simp [Logger.touches]) hn, fun hn => absurd (by simp [Logger.touches]) hn, fun _ => rfl,
      fun _ => rfl, fun _ _ => rfl⟩
  | setStream os =>
    cases h
    exact ⟨fun _ => rfl, fun _ => rfl, fun _ => rfl, fun hn => absurd (by simp [Logger.touches]) hn, fun _ _ => rfl⟩
  | setLevel v =>
    cases h
    exact ⟨fun hn => absurd (by simp [Logger.touches]) hn, fun _ => rfl, fun _ => rfl, fun _ => rfl, fun _ _ => rfl⟩
  | setPrefix v =>
    cases h
    exact ⟨fun _ => rfl, fun hn => absurd (by simp [Logger.touches]) hn, fun _ => rfl, fun _ => rfl, fun _ _ => rfl⟩

/-- two states of the logger agree on this memory -/
def SameAt (l m : Logger) : Loc → Prop
  | .level => l.thresholdLevel = m.thresholdLevel
  | .pfx => l.pfx = m.pfx
  | .type => l.currentType = m.currentType
  | .os => l.os = m.os
  | .stream s => l.text s = m.text s
  | .obj _ => True
  | .opt _ => True

/-- the type is written before it is read -/
def needed (op : Logger.Op) (x : Loc) : Prop := match op, x with
  | .log _, .type => False
  | _, _ => True

/-- C100: what an operation on the logger writes depends only on what it is recorded to access (the type of the message being
written before it is read by `log`): from two states which agree there, it accesses the same memory, fails in both or in
neither, and leaves the same in everything it writes. -/
theorem c100_reads_logger {l m : Logger} {op : Logger.Op} (h : ∀ x, Touches (l.touches op) x → needed op x → SameAt l m x) :
    l.touches op = m.touches op ∧ (∀ e, l.step op = .error e → m.step op = .error e) ∧
    ∀ l', l.step op = .ok l' → ∃ m', m.step op = .ok m' ∧ ∀ x, (⟨x, true⟩ : Access) ∈ l.touches op → SameAt l' m' x := by
  cases op with
  | log t =>
    have hl : l.thresholdLevel = m.thresholdLevel := h .level ⟨false, by simp [Logger.touches]⟩ trivial
    by_cases hv : l.thresholdLevel.toInt ≤ t.toInt
    · have hv' : m.thresholdLevel.toInt ≤ t.toInt := hl ▸ hv
      have ho : l.os = m.os := h .os ⟨false, by simp [Logger.touches, hv]⟩ trivial
      have hp : l.pfx = m.pfx := h .pfx ⟨false, by simp [Logger.touches, hv]⟩ trivial
      have ht : l.touches (.log t) = m.touches (.log t) := by simp [Logger.touches, hv, hv', ho]
      refine ⟨ht, ?_⟩
      cases hos : l.os with
      | none =>
        have hom : m.os = none := ho ▸ hos
        have e1 : ∀ n : Logger, n.os = none → n.thresholdLevel.toInt ≤ t.toInt → n.step (.log t) = .error .danglingUse := by
          intro n hn hnv
          simp only [Logger.step, Logger.log]
          rw [if_pos hnv]
          simp only [Logger.write, hn]
          rfl
        rw [e1 l hos hv, e1 m hom hv']
        exact ⟨fun e he => he, fun l' h => (by cases h)⟩
      | some s =>
        have hom : m.os = some s := ho ▸ hos
        obtain ⟨l1, g1, -⟩ := logger_step_total (l := l) (by rw [hos]; intro h; cases h) (op := .log t) (by intro h; cases h)
        obtain ⟨m1, g2, -⟩ := logger_step_total (l := m) (by rw [hom]; intro h; cases h) (op := .log t) (by intro h; cases h)
        rw [g1, g2]
        refine ⟨fun e he => (by cases he), fun l' hl' => ?_⟩
        cases hl'
        refine ⟨_, rfl, fun x hx => ?_⟩
        have f1 := log_text g1
        have f2 := log_text g2
        subst f1 f2
        simp only [Logger.touches, if_pos hv, hos, List.mem_cons, List.mem_append, List.not_mem_nil, or_false, Access.mk.injEq,
          Bool.true_eq_false, and_false, and_true, false_or] at hx
        rcases hx with rfl | rfl
        · rfl
        · have htx : l.text s = m.text s := h (.stream s) ⟨true, by simp [Logger.touches, hv, hos]⟩ trivial
          show (if _ then _ else _) = (if _ then _ else _)
          rw [hl, hp, htx, hos, hom]
    · have hv' : ¬ m.thresholdLevel.toInt ≤ t.toInt := hl ▸ hv
      have ht : l.touches (.log t) = m.touches (.log t) := by simp [Logger.touches, hv, hv']
      refine ⟨ht, ?_⟩
      have e1 : ∀ n : Logger, ¬ n.thresholdLevel.toInt ≤ t.toInt → n.step (.log t) = .ok { n with currentType := t } := by
        intro n hn
        simp only [Logger.step, Logger.log]
        rw [if_neg hn]
        rfl
      rw [e1 l hv, e1 m hv']
      refine ⟨fun e he => (by cases he), fun l' hl' => ?_⟩
      cases hl'
      refine ⟨_, rfl, fun x hx => ?_⟩
      simp only [Logger.touches, if_neg hv, List.mem_cons, List.append_nil, List.not_mem_nil, or_false, Access.mk.injEq,
        Bool.true_eq_false, and_false, and_true] at hx
      subst hx
      rfl
  | stream x =>
    have hl : l.thresholdLevel = m.thresholdLevel := h .level ⟨false, by simp [Logger.touches]⟩ trivial
    have hc : l.currentType = m.currentType := h .type ⟨false, by simp [Logger.touches]⟩ trivial
    by_cases hv : l.thresholdLevel.toInt ≤ l.currentType.toInt
    · have hv' : m.thresholdLevel.toInt ≤ m.currentType.toInt := hl ▸ hc ▸ hv
      have ho : l.os = m.os := h .os ⟨false, by simp [Logger.touches, hv]⟩ trivial
      refine ⟨by simp [Logger.touches, hv, hv', ho], ?_⟩
      simp only [Logger.step, Logger.stream]
      rw [if_pos hv, if_pos hv']
      simp only [Logger.write, ← ho]
      cases hos : l.os with
      | none => exact ⟨fun e he => he, fun l' h => (by cases h)⟩
      | some s =>
        refine ⟨fun e he => (by cases he), fun l' hl' => ?_⟩
        cases hl'
        refine ⟨_, rfl, fun x hx => ?_⟩
        simp only [Logger.touches, if_pos hv, hos, List.mem_cons, List.mem_append, List.not_mem_nil, or_false, Access.mk.injEq,
          Bool.true_eq_false, and_false, and_true, false_or] at hx
        subst hx
        have htx : l.text s = m.text s := h (.stream s) ⟨true, by simp [Logger.touches, hv, hos]⟩ trivial
        show (if _ then _ else _) = (if _ then _ else _)
        rw [htx]
    · have hv' : ¬ m.thresholdLevel.toInt ≤ m.currentType.toInt := hl ▸ hc ▸ hv
      refine ⟨by simp [Logger.touches, hv, hv'], ?_⟩
      simp only [Logger.step, Logger.stream]
      rw [if_neg hv, if_neg hv']
      refine ⟨fun e he => (by cases he), fun l' hl' => ?_⟩
      cases hl'
      refine ⟨_, rfl, fun x hx => ?_⟩
      simp [Logger.touches, hv] at hx
  | reset =>
    refine ⟨rfl, fun e he => (by cases he), fun l' hl' => ?_⟩
    cases hl'
    refine ⟨_, rfl, fun x hx => ?_⟩
    simp only [Logger.touches, List.mem_cons, List.not_mem_nil, or_false, Access.mk.injEq, and_true] at hx
    rcases hx with rfl | rfl <;> rfl
  | setStream os =>
    refine ⟨rfl, fun e he => (by cases he), fun l' hl' => ?_⟩
    cases hl'
    refine ⟨_, rfl, fun x hx => ?_⟩
    simp only [Logger.touches, List.mem_cons, List.not_mem_nil, or_false, Access.mk.injEq, and_true] at hx
    subst hx; rfl
  | setLevel v =>
    refine ⟨rfl, fun e he => (by cases he), fun l' hl' => ?_⟩
    cases hl'
    refine ⟨_, rfl, fun x hx => ?_⟩
    simp only [Logger.touches, List.mem_cons, List.not_mem_nil, or_false, Access.mk.injEq, and_true] at hx
    subst hx; rfl
  | setPrefix v =>
    refine ⟨rfl, fun e he => (by cases he), fun l' hl' => ?_⟩
    cases hl'
    refine ⟨_, rfl, fun x hx => ?_⟩
    simp only [Logger.touches, List.mem_cons, List.not_mem_nil, or_false, Access.mk.injEq, and_true] at hx
    subst hx; rfl

/-- Non-vacuity: a visible message is recorded to write the type and its stream, a hidden one only the type. -/
example : (⟨.stream 0, true⟩ : Access) ∈ Logger.new.touches (.log .ERROR) ∧ (⟨.stream 0, true⟩ : Access) ∉ Logger.new.touches (.log .DETAIL) ∧
    (⟨.type, true⟩ : Access) ∈ Logger.new.touches (.log .DETAIL) := by decide

end Mpc.Props
