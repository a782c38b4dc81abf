import Mathlib.Algebra.BigOperators.Intervals
import Mathlib.Algebra.BigOperators.Group.Finset.Piecewise
import Mathlib.Data.List.Pairwise
import Verif.Spec.Csc
import Verif.Proofs.Builder

namespace Mpc
open Exec

variable {K : Type}

theorem Sparse.outerIndex_mono (s : Sparse K) {a b : Nat} (h : a ≤ b) : s.outerIndex a ≤ s.outerIndex b := by
  induction b with
  | zero => simp_all
  | succ b ih =>
    rcases Nat.lt_or_ge b a with h' | h'
    · rw [show a = b + 1 by omega]
    · exact (ih h').trans (by simp [Sparse.outerIndex])

/-- Result of copying one column. -/
theorem copyColumn_post (l : List (Nat × K)) (pos : Nat) (c : Csc K) (hi : pos + l.length ≤ c.i.size)
    (hx : pos + l.length ≤ c.x.size) :
    Post (copyColumn l (pos, c)) (fun r => r.1 = pos + l.length ∧ r.2.m = c.m ∧ r.2.n = c.n ∧
      r.2.nzmax = c.nzmax ∧ r.2.p = c.p ∧ r.2.i.size = c.i.size ∧ r.2.x.size = c.x.size ∧
      (∀ k, k < pos → r.2.i.get k = c.i.get k ∧ r.2.x.get k = c.x.get k) ∧
      (∀ t (ht : t < l.length), r.2.i.get (pos + t) = (l[t]).1 ∧ r.2.x.get (pos + t) = (l[t]).2)) := by
  induction l generalizing pos c with
  | nil => exact post_ok ⟨rfl, rfl, rfl, rfl, rfl, rfl, rfl, fun _ _ => ⟨rfl, rfl⟩, fun t ht => by simp at ht⟩
  | cons e es ih =>
    simp only [List.length_cons] at hi hx
    unfold copyColumn
    rw [Vec.set_ok (by omega)]
    simp only [ok_bind]
    rw [Vec.set_ok (by omega)]
    simp only [ok_bind]
    refine Post.mono (ih (pos + 1) _ (by simp; omega) (by simp; omega)) ?_
    rintro ⟨p', c'⟩ ⟨h1, h2, h3, h4, h5, h6, h7, h8, h9⟩
    simp only at h1 h2 h3 h4 h5 h6 h7 h8 h9 ⊢
    refine ⟨by simp; omega, h2, h3, h4, h5, by simpa using h6, by simpa using h7, ?_, ?_⟩
    · intro k hk
      obtain ⟨a, b⟩ := h8 k (by omega)
      simp only [Vec.setRaw_get] at a b
      rw [if_neg (by omega)] at a b
      exact ⟨a, b⟩
    · intro t ht
      rcases t with _ | t
      · obtain ⟨a, b⟩ := h8 pos (by omega)
        simp only [Vec.setRaw_get, if_true] at a b
        exact ⟨a, b⟩
      · have := h9 t (by simpa using ht)
        rw [show pos + (t + 1) = pos + 1 + t by omega]
        simpa using this

/-- The conversion succeeds and lays the columns out one after the other. -/
structure CscOf (s : Sparse K) (a : Csc K) : Prop where
  m : a.m = s.rows
  n : a.n = s.cols
  nz : a.nzmax = s.nonZeros
  pSize : a.p.size = s.cols + 1
  iSize : a.i.size = s.nonZeros
  xSize : a.x.size = s.nonZeros
  p : ∀ c, c ≤ s.cols → a.p.get c = s.outerIndex c
  e : ∀ c, c < s.cols → ∀ t (ht : t < (s.col c).length),
    a.i.get (s.outerIndex c + t) = ((s.col c)[t]).1 ∧ a.x.get (s.outerIndex c + t) = ((s.col c)[t]).2

theorem createOsqp_post (s : Sparse K) (jp ji : Nat → Nat) (jx : Nat → K) :
    Post (createOsqpSparseMatrix s false jp ji jx) (fun r => ∃ a, r = some a ∧ CscOf s a) := by
  unfold createOsqpSparseMatrix
  simp only [Bool.false_eq_true, if_false]
  refine Post.bind (forRange_post _ _ _ (fun k (r : Nat × Csc K) =>
    r.1 = s.outerIndex k ∧ r.2.m = s.rows ∧ r.2.n = s.cols ∧ r.2.nzmax = s.nonZeros ∧
    r.2.p.size = s.cols + 1 ∧ r.2.i.size = s.nonZeros ∧ r.2.x.size = s.nonZeros ∧
    (∀ c, c < k → r.2.p.get c = s.outerIndex c) ∧
    (∀ c, c < k → ∀ t (ht : t < (s.col c).length),
      r.2.i.get (s.outerIndex c + t) = ((s.col c)[t]).1 ∧ r.2.x.get (s.outerIndex c + t) = ((s.col c)[t]).2))
    ?_ ?_) ?_
  · exact ⟨rfl, rfl, rfl, rfl, rfl, rfl, rfl, fun c hc => by omega, fun c hc => by omega⟩
  · rintro k ⟨pos, c⟩ hk ⟨h1, h2, h3, h4, h5, h6, h7, h8, h9⟩
    simp only at h1 h2 h3 h4 h5 h6 h7 h8 h9 ⊢
    have hm : s.outerIndex (k + 1) ≤ s.nonZeros := s.outerIndex_mono hk
    have hk1 : s.outerIndex (k + 1) = s.outerIndex k + (s.col k).length := rfl
    rw [Vec.set_ok (by omega)]
    simp only [ok_bind]
    refine Post.mono (copyColumn_post (s.col k) pos _ (by simp only; omega) (by simp only; omega)) ?_
    rintro ⟨p', c'⟩ ⟨g1, g2, g3, g4, g5, g6, g7, g8, g9⟩
    simp only at g1 g2 g3 g4 g5 g6 g7 g8 g9 ⊢
    refine ⟨by omega, by omega, by omega, by omega, by rw [g5]; exact h5, by omega, by omega, ?_, ?_⟩
    · intro q hq
      rw [g5, Vec.setRaw_get]
      by_cases e : q = k
      · subst e; simp
      · rw [if_neg e]; exact h8 q (by omega)
    · intro q hq t ht
      by_cases e : q = k
      · subst e
        have := g9 t ht
        rwa [h1] at this
      · have hle : s.outerIndex (q + 1) ≤ s.outerIndex k := s.outerIndex_mono (by omega)
        have hq1 : s.outerIndex (q + 1) = s.outerIndex q + (s.col q).length := rfl
        obtain ⟨a, b⟩ := g8 (s.outerIndex q + t) (by omega)
        rw [a, b]
        exact h9 q (by omega) t ht
  · rintro ⟨pos, c⟩ ⟨h1, h2, h3, h4, h5, h6, h7, h8, h9⟩
    simp only at h1 h2 h3 h4 h5 h6 h7 h8 h9 ⊢
    rw [Vec.set_ok (by omega)]
    simp only [ok_bind]
    rw [require_ok (by exact h1)]
    simp only [ok_bind]
    refine post_pure ⟨_, rfl, h2, h3, h4, h5, h6, h7, ?_, h9⟩
    intro q hq
    simp only [Vec.setRaw_get]
    by_cases e : q = s.cols
    · subst e; rw [if_pos rfl]; exact h1
    · rw [if_neg e]; exact h8 q (by omega)

/-- Columns with strictly increasing, in-range row indices. -/
structure Sparse.Ordered (s : Sparse K) : Prop where
  sorted : ∀ c, ((s.col c).map Prod.fst).Pairwise (· < ·)
  range : ∀ c e, e ∈ s.col c → e.1 < s.rows

theorem Sparse.ofDense_ordered [Zero K] [DecidableEq K] (m : Mat K) : (Sparse.ofDense m).Ordered := by
  constructor
  · intro c
    have : ((Sparse.ofDense m).col c).map Prod.fst =
        (List.range m.rows).filter (fun r => decide (m.get r c ≠ 0)) := by
      simp only [Sparse.ofDense]
      induction (List.range m.rows) with
      | nil => rfl
      | cons a l ih =>
        by_cases h : m.get a c = 0
        · simp [h, ih]
        · simp [h, ih]
    rw [this]
    exact List.Pairwise.filter _ List.pairwise_lt_range
  · intro c e he
    simp only [Sparse.ofDense, List.mem_filterMap, List.mem_range] at he
    obtain ⟨a, ha, h⟩ := he
    split at h
    · simp at h
    · simp only [Option.some.injEq] at h; subst h; exact ha

theorem Sparse.upper_ordered {s : Sparse K} (h : s.Ordered) : s.upper.Ordered := by
  constructor
  · intro c
    have := h.sorted c
    exact List.Pairwise.sublist (List.Sublist.map _ List.filter_sublist) this
  · intro c e he
    exact h.range c e (List.mem_of_mem_filter he)

theorem CscOf.wellFormed {s : Sparse K} {a : Csc K} (h : CscOf s a) (ho : s.Ordered) :
    Spec.CscWellFormed a := by
  have hfind : ∀ n, n ≤ s.cols → ∀ k, k < s.outerIndex n → ∃ c t, c < n ∧ t < (s.col c).length ∧
      k = s.outerIndex c + t := by
    intro n
    induction n with
    | zero => intro _ k hk; simp [Sparse.outerIndex] at hk
    | succ n ih =>
      intro hn k hk
      by_cases h' : k < s.outerIndex n
      · obtain ⟨c, t, h1, h2, h3⟩ := ih (by omega) k h'
        exact ⟨c, t, by omega, h2, h3⟩
      · have : s.outerIndex (n + 1) = s.outerIndex n + (s.col n).length := rfl
        exact ⟨n, k - s.outerIndex n, by omega, by omega, by omega⟩
  constructor
  · rw [h.pSize, h.n]
  · rw [h.p 0 (by omega)]; rfl
  · intro c hc
    rw [h.n] at hc
    rw [h.p c (by omega), h.p (c + 1) (by omega)]
    exact s.outerIndex_mono (by omega)
  · rw [h.n, h.p _ (le_refl _), h.nz]; rfl
  · rw [h.iSize, h.xSize, h.nz]; exact ⟨rfl, rfl⟩
  · intro k hk
    rw [h.nz] at hk
    obtain ⟨c, t, h1, h2, rfl⟩ := hfind s.cols (le_refl _) k hk
    rw [(h.e c h1 t h2).1, h.m]
    exact ho.range c _ (List.getElem_mem h2)
  · intro c hc k hk1 hk2
    rw [h.n] at hc
    rw [h.p c (by omega)] at hk1
    rw [h.p (c + 1) (by omega)] at hk2
    have hs : s.outerIndex (c + 1) = s.outerIndex c + (s.col c).length := rfl
    obtain ⟨t, rfl⟩ := Nat.exists_eq_add_of_le hk1
    have e1 := (h.e c hc t (by omega)).1
    have e2 := (h.e c hc (t + 1) (by omega)).1
    rw [show s.outerIndex c + t + 1 = s.outerIndex c + (t + 1) by omega, e1, e2]
    have := List.pairwise_iff_getElem.1 (ho.sorted c) t (t + 1) (by simp; omega) (by simp; omega) (by omega)
    simpa using this

section decode

/-- Row `r` of a column holds `v`: it is stored, or nothing is stored and `v` is zero. -/
def ColHas [Zero K] (l : List (Nat × K)) (r : Nat) (v : K) : Prop := (r, v) ∈ l ∨ v = 0 ∧ ∀ e ∈ l, e.1 ≠ r

theorem CscOf.entry [Zero K] [One K] [Add K] [Mul K] [Neg K] [ExactOps K] {s : Sparse K} {a : Csc K} (h : CscOf s a)
    (ho : s.Ordered) {r c : Nat} {v : K} (hc : c < s.cols) (hv : ColHas (s.col c) r v) : Spec.cscEntry a r c = v := by
  unfold Spec.cscEntry
  have hs : s.outerIndex (c + 1) = s.outerIndex c + (s.col c).length := rfl
  rw [h.p c (by omega), h.p (c + 1) (by omega), hs, Nat.add_sub_cancel_left]
  rcases hv with hv | ⟨rfl, hv⟩
  · obtain ⟨t, ht, e⟩ := List.getElem_of_mem hv
    rw [sumTo_single ht]
    · rw [(h.e c hc t ht).1, (h.e c hc t ht).2, e, if_pos rfl]
    · intro i hi hne
      rw [(h.e c hc i hi).1, if_neg]
      intro hr
      have hp := List.pairwise_iff_getElem.1 (ho.sorted c)
      rcases Nat.lt_or_gt_of_ne hne with hlt | hlt
      · have := hp i t (by simpa using hi) (by simpa using ht) hlt
        rw [List.getElem_map, List.getElem_map, e] at this
        simp only at this
        omega
      · have := hp t i (by simpa using ht) (by simpa using hi) hlt
        rw [List.getElem_map, List.getElem_map, e] at this
        simp only at this
        omega
  · refine sumTo_zero fun i hi => ?_
    rw [(h.e c hc i hi).1, if_neg (hv _ (List.getElem_mem hi))]

theorem colHas_ofDense [Zero K] [DecidableEq K] (m : Mat K) {r : Nat} (hr : r < m.rows) (c : Nat) :
    ColHas ((Sparse.ofDense m).col c) r (m.get r c) := by
  simp only [ColHas, Sparse.ofDense, List.mem_filterMap, List.mem_range]
  by_cases h : m.get r c = 0
  · refine Or.inr ⟨h, ?_⟩
    rintro e ⟨q, hq, he⟩ rfl
    split at he
    · simp at he
    · rename_i hne
      simp only [Option.some.injEq] at he
      subst he
      exact hne h
  · exact Or.inl ⟨r, hr, by rw [if_neg h]⟩

theorem colHas_upper [Zero K] {s : Sparse K} {r c : Nat} {v : K} (h : ColHas (s.col c) r v) :
    ColHas (s.upper.col c) r (if r ≤ c then v else 0) := by
  simp only [ColHas, Sparse.upper, List.mem_filter, decide_eq_true_eq]
  by_cases hr : r ≤ c
  · rw [if_pos hr]
    rcases h with h | ⟨h, h'⟩
    · exact Or.inl ⟨h, hr⟩
    · exact Or.inr ⟨h, fun e he => h' e he.1⟩
  · rw [if_neg hr]
    refine Or.inr ⟨rfl, ?_⟩
    rintro e ⟨_, he⟩ rfl
    exact hr he

end decode
end Mpc
