import Mathlib.Tactic.Ring
import Verif.Model.NLMPC
import Verif.Proofs.Mapping

/-
The loops of the nonlinear optimizer: filling blocks of a vector, shifting blocks, the initial point.
-/
namespace Mpc
open Exec
set_option linter.unusedSectionVars false

theorem post_of_ok {α : Type} {e : Exec α} {T Q : α → Prop} (h : Post e T) (hq : ∀ a, e = .ok a → T a → Q a) :
    Post e Q := by
  obtain ⟨a, ha, ht⟩ := h
  exact ⟨a, ha, hq a ha ht⟩

theorem Vec.set_eq_ok {α : Type} {v v' : Vec α} {i : Nat} {a : α} (h : v.set i a = .ok v') :
    i < v.size ∧ v' = v.setRaw i a := by
  by_cases hi : i < v.size
  · rw [Vec.set_ok hi] at h
    cases h
    exact ⟨hi, rfl⟩
  · unfold Vec.set at h
    rw [require_fail hi] at h
    cases h

theorem Vec.at_eq_ok {α : Type} {v : Vec α} {i : Nat} {a : α} (h : v.at? i = .ok a) : i < v.size ∧ a = v.get i := by
  by_cases hi : i < v.size
  · rw [Vec.at_ok hi] at h
    cases h
    exact ⟨hi, rfl⟩
  · unfold Vec.at? at h
    rw [require_fail hi] at h
    cases h

section fill
variable {σ α : Type}

/-- nested loops which set entry `off + i * n + j` to `f i j`, for `i` in `[start, start + cnt)`, `j < n` -/
theorem fill_inv {off n start cnt : Nat} (π : σ → Vec α) (body : Nat → Nat → σ → Exec σ) (f : Nat → Nat → α)
    (hb : ∀ i j s s', start ≤ i → i < start + cnt → j < n → body i j s = .ok s' → π s' = (π s).setRaw (off + (i * n + j)) (f i j)) {s s' : σ}
    (hr : (forFrom start cnt s fun i s => forRange n s (body i)) = .ok s') :
    (π s').size = (π s).size ∧
    (∀ i j, start ≤ i → i < start + cnt → j < n → (π s').get (off + (i * n + j)) = f i j) ∧
    ∀ p, (∀ i j, start ≤ i → i < start + cnt → j < n → p ≠ off + (i * n + j)) → (π s').get p = (π s).get p := by
  refine forFrom_inv (fun m t => (π t).size = (π s).size ∧
    (∀ i j, start ≤ i → i < m → j < n → (π t).get (off + (i * n + j)) = f i j) ∧
    ∀ p, (∀ i j, start ≤ i → i < m → j < n → p ≠ off + (i * n + j)) → (π t).get p = (π s).get p) ?_ ?_ hr
  · exact ⟨rfl, fun i j h1 h2 => by omega, fun _ _ => rfl⟩
  · intro m t t' h1 h2 ⟨q1, q2, q3⟩ hs
    have := forFrom_inv (fun l u => (π u).size = (π s).size ∧
      (∀ j, j < l → j < n → (π u).get (off + (m * n + j)) = f m j) ∧
      ∀ p, (∀ j, j < l → j < n → p ≠ off + (m * n + j)) → (π u).get p = (π t).get p) ?_ ?_ hs
    · obtain ⟨r1, r2, r3⟩ := this
      rw [Nat.zero_add] at r2 r3
      refine ⟨r1, ?_, ?_⟩
      · intro i j hi hi' hj
        rcases Nat.lt_or_ge i m with h | h
        · rw [r3 _ (fun j' _ hj' he => ?_)]
          · exact q2 i j hi h hj
          · have := (block_eq_iff hj hj').1 (Nat.add_left_cancel he)
            omega
        · obtain rfl : i = m := by omega
          exact r2 j hj hj
      · intro p hp
        rw [r3 p (fun j hj hj' => hp m j h1 (by omega) hj'), q3 p (fun i j hi hi' hj => hp i j hi (by omega) hj)]
    · exact ⟨q1, fun j hj => by omega, fun _ _ => rfl⟩
    · intro l u u' _ hl ⟨r1, r2, r3⟩ hu
      rw [Nat.zero_add] at hl
      have e := hb m l u u' h1 h2 hl hu
      refine ⟨by rw [e]; exact r1, ?_, ?_⟩
      · intro j hj hj'
        rw [e]
        unfold Vec.setRaw
        dsimp only
        by_cases hjl : j = l
        · subst hjl; rw [if_pos rfl]
        · rw [if_neg (by omega)]
          exact r2 j (by omega) hj'
      · intro p hp
        rw [e]
        unfold Vec.setRaw
        dsimp only
        rw [if_neg (hp l (by omega) hl)]
        exact r3 p (fun j hj hj' => hp j (by omega) hj')

/-- nested loops all of whose steps succeed -/
theorem fill_total {n start cnt : Nat} (Sz : σ → Prop) (body : Nat → Nat → σ → Exec σ)
    (hb : ∀ i j s, start ≤ i → i < start + cnt → j < n → Sz s → Post (body i j s) Sz) {s : σ} (h : Sz s) :
    Post (forFrom start cnt s fun i s => forRange n s (body i)) Sz := by
  refine forFrom_post start cnt s _ (fun _ => Sz) h ?_
  intro i t h1 h2 ht
  exact forRange_post n t _ (fun _ => Sz) ht (fun j u hj hu => hb i j u h1 h2 hj hu)

end fill
end Mpc
