/-
Outcomes of the modelled C++ code.

Undefined behaviour, failed `assert`s, `exit` and C++ exceptions are distinct
outcomes of the executable model (they are never assumed away).
-/

namespace Mpc

/-- Abnormal outcomes of the modelled C++ code. -/
inductive Fault where
  /-- access outside an Eigen object / std::vector / malloc'ed array (undefined behaviour) -/
  | outOfBounds
  /-- Eigen operation on objects of incompatible sizes (assertion or undefined behaviour) -/
  | sizeMismatch
  /-- use of a pointer that was never set, or was already released (undefined behaviour) -/
  | danglingUse
  /-- release of memory that is not allocated (undefined behaviour) -/
  | doubleFree
  /-- signed integer overflow (undefined behaviour) -/
  | signedOverflow
  /-- failed C `assert` -/
  | assertion
  /-- process terminated with `exit` -/
  | exitCall
  /-- a C++ exception left the function -/
  | cppThrow
  deriving DecidableEq, Repr

/-- A computation of the model: a value or an abnormal outcome. -/
abbrev Exec (α : Type) := Except Fault α

namespace Exec

/-- Total correctness: the computation ends normally with a value satisfying `Q`. -/
def Post {α : Type} (e : Exec α) (Q : α → Prop) : Prop := ∃ a, e = .ok a ∧ Q a

theorem Post.intro {α : Type} {e : Exec α} {Q : α → Prop} {a : α} (h : e = .ok a) (hq : Q a) :
    Post e Q := ⟨a, h, hq⟩

theorem post_ok {α : Type} {a : α} {Q : α → Prop} (h : Q a) : Post (.ok a : Exec α) Q := ⟨a, rfl, h⟩

theorem post_pure {α : Type} {a : α} {Q : α → Prop} (h : Q a) : Post (pure a : Exec α) Q := ⟨a, rfl, h⟩

theorem Post.bind {α β : Type} {e : Exec α} {f : α → Exec β} {Q : α → Prop} {R : β → Prop}
    (he : Post e Q) (hf : ∀ a, Q a → Post (f a) R) : Post (e >>= f) R := by
  obtain ⟨a, rfl, ha⟩ := he
  exact hf a ha

theorem Post.mono {α : Type} {e : Exec α} {Q R : α → Prop} (he : Post e Q) (h : ∀ a, Q a → R a) :
    Post e R := by
  obtain ⟨a, rfl, ha⟩ := he
  exact ⟨a, rfl, h a ha⟩

theorem Post.and {α : Type} {e : Exec α} {Q R : α → Prop} (h1 : Post e Q) (h2 : Post e R) :
    Post e (fun a => Q a ∧ R a) := by
  obtain ⟨a, rfl, ha⟩ := h1
  obtain ⟨b, hb, hb'⟩ := h2
  cases hb
  exact ⟨a, rfl, ha, hb'⟩

theorem Post.of_eq {α : Type} {e : Exec α} {Q : α → Prop} (h : Post e Q) {a : α} (ha : e = .ok a) :
    Q a := by
  obtain ⟨b, rfl, hb⟩ := h
  cases ha
  exact hb

@[simp] theorem ok_bind {α β : Type} (a : α) (f : α → Exec β) :
    ((Except.ok a : Exec α) >>= f) = f a := rfl

@[simp] theorem pure_bind' {α β : Type} (a : α) (f : α → Exec β) :
    ((pure a : Exec α) >>= f) = f a := rfl

@[simp] theorem error_bind {α β : Type} (e : Fault) (f : α → Exec β) :
    ((Except.error e : Exec α) >>= f) = .error e := rfl

theorem bind_eq_ok {α β : Type} {e : Exec α} {f : α → Exec β} {b : β} :
    (e >>= f) = .ok b ↔ ∃ a, e = .ok a ∧ f a = .ok b := by
  cases e with
  | ok a => simp
  | error x => simp

/-- Check a condition the code relies on; otherwise the given abnormal outcome. -/
def require (c : Prop) [Decidable c] (f : Fault) : Exec Unit :=
  if c then .ok () else .error f

theorem require_ok {c : Prop} [Decidable c] {f : Fault} (h : c) : require c f = .ok () := by
  simp [require, h]

theorem require_fail {c : Prop} [Decidable c] {f : Fault} (h : ¬ c) :
    require c f = .error f := by
  simp [require, h]

theorem require_eq_ok {c : Prop} [Decidable c] {f : Fault} {u : Unit} :
    require c f = .ok u ↔ c := by
  unfold require; split <;> simp_all

/-- The C++ loop `for (size_t i = lo; i < lo + n; i++) s = body(i, s)`. -/
def forFrom {σ : Type} : (lo n : Nat) → σ → (Nat → σ → Exec σ) → Exec σ
  | _, 0, s, _ => .ok s
  | lo, n + 1, s, body => do
    let s' ← body lo s
    forFrom (lo + 1) n s' body

/-- The C++ loop `for (size_t i = 0; i < n; i++) s = body(i, s)`. -/
def forRange {σ : Type} (n : Nat) (s : σ) (body : Nat → σ → Exec σ) : Exec σ :=
  forFrom 0 n s body

/-- Loop rule: an invariant established initially and preserved by every iteration holds at the end. -/
theorem forFrom_post {σ : Type} (lo n : Nat) (s : σ) (body : Nat → σ → Exec σ)
    (Inv : Nat → σ → Prop) (h0 : Inv lo s)
    (hstep : ∀ i t, lo ≤ i → i < lo + n → Inv i t → Post (body i t) (Inv (i + 1))) :
    Post (forFrom lo n s body) (Inv (lo + n)) := by
  induction n generalizing lo s with
  | zero => exact ⟨s, rfl, by simpa using h0⟩
  | succ n ih =>
    unfold forFrom
    refine Post.bind (hstep lo s (Nat.le_refl _) (by omega) h0) ?_
    intro t ht
    have := ih (lo + 1) t ht (fun i t h1 h2 h3 => hstep i t (by omega) (by omega) h3)
    rwa [show lo + 1 + n = lo + (n + 1) by omega] at this

theorem forRange_post {σ : Type} (n : Nat) (s : σ) (body : Nat → σ → Exec σ)
    (Inv : Nat → σ → Prop) (h0 : Inv 0 s)
    (hstep : ∀ i t, i < n → Inv i t → Post (body i t) (Inv (i + 1))) :
    Post (forRange n s body) (Inv n) := by
  have := forFrom_post 0 n s body Inv h0 (fun i t _ h2 h3 => hstep i t (by omega) h3)
  simpa [forRange] using this

/-- Partial-correctness loop rule. -/
theorem forFrom_inv {σ : Type} {lo n : Nat} {s s' : σ} {body : Nat → σ → Exec σ}
    (Inv : Nat → σ → Prop) (h0 : Inv lo s)
    (hstep : ∀ i t t', lo ≤ i → i < lo + n → Inv i t → body i t = .ok t' → Inv (i + 1) t')
    (hr : forFrom lo n s body = .ok s') : Inv (lo + n) s' := by
  induction n generalizing lo s with
  | zero =>
    simp only [forFrom, Except.ok.injEq] at hr
    subst hr; simpa using h0
  | succ n ih =>
    unfold forFrom at hr
    obtain ⟨t, ht, hr⟩ := bind_eq_ok.1 hr
    have := ih (lo := lo + 1) (s := t) (hstep lo s t (Nat.le_refl _) (by omega) h0 ht)
      (fun i t t' h1 h2 => hstep i t t' (by omega) (by omega)) hr
    rwa [show lo + 1 + n = lo + (n + 1) by omega] at this

end Exec
end Mpc
