import Mathlib.Data.Nat.Digits.Lemmas
import Verif.Model.Print
import Verif.Spec.Print

/-
Printed numerals denote the printed numbers.
-/
namespace Mpc
open Spec

theorem natOf_snoc (l : List Char) (c : Char) : natOf (l ++ [c]) = 10 * natOf l + (c.toNat - '0'.toNat) := by
  simp [natOf, List.foldl_append]

theorem natOf_zeros (k : Nat) (l : List Char) : natOf (List.replicate k '0' ++ l) = natOf l := by
  induction k with
  | zero => simp
  | succ k ih =>
    rw [← ih]
    simp [natOf, List.replicate_succ]

theorem digitChar_digit {k : Nat} (h : k < 10) : ('0' ≤ k.digitChar ∧ k.digitChar ≤ '9') ∧ k.digitChar.toNat - '0'.toNat = k := by
  interval_cases k <;> decide

theorem digits_read (n : Nat) : (∀ c ∈ (Nat.digits 10 n).reverse.map Nat.digitChar, '0' ≤ c ∧ c ≤ '9') ∧
    natOf ((Nat.digits 10 n).reverse.map Nat.digitChar) = n := by
  induction n using Nat.strong_induction_on with
  | _ n ih =>
    by_cases hn : n = 0
    · subst hn; simp [natOf]
    · have e := Nat.digits_def' (b := 10) (by norm_num) (Nat.pos_of_ne_zero hn)
      obtain ⟨h1, h2⟩ := ih (n / 10) (by omega)
      obtain ⟨d1, d2⟩ := digitChar_digit (Nat.mod_lt n (by norm_num : 0 < 10))
      rw [e, List.reverse_cons, List.map_append]
      refine ⟨fun c hc => ?_, ?_⟩
      · rcases List.mem_append.1 hc with hc | hc
        · exact h1 c hc
        · simp only [List.map_cons, List.map_nil, List.mem_singleton] at hc
          subst hc
          exact d1
      · simp only [List.map_cons, List.map_nil]
        rw [natOf_snoc, h2, d2]
        omega

theorem decimal_shows (n : Nat) : ShowsNat n (decimal n) := by
  unfold decimal
  split_ifs with h
  · subst h
    refine ⟨⟨by simp, ?_⟩, ?_⟩
    · intro c hc
      simp only [List.mem_singleton] at hc
      subst hc
      decide
    · simp [natOf]
  · obtain ⟨h1, h2⟩ := digits_read n
    refine ⟨⟨?_, h1⟩, h2⟩
    simp [Nat.digits_ne_nil_iff_ne_zero, h]

theorem decimal_length {p n : Nat} (hp : 0 < p) (hn : n < 10 ^ p) : (decimal n).length ≤ p := by
  unfold decimal
  split_ifs with h
  · simp only [List.length_singleton]; omega
  · simp only [List.length_map, List.length_reverse]
    exact (Nat.digits_length_le_iff (by norm_num) n).2 hn

theorem padded_shows {p n : Nat} (hp : 0 < p) (hn : n < 10 ^ p) :
    IsDigits (padded p n) ∧ (padded p n).length = p ∧ natOf (padded p n) = n := by
  obtain ⟨⟨h1, h2⟩, h3⟩ := decimal_shows n
  have hl := decimal_length hp hn
  refine ⟨⟨?_, ?_⟩, ?_, ?_⟩
  · simp [padded, h1]
  · intro c hc
    rcases List.mem_append.1 hc with hc | hc
    · rw [(List.mem_replicate.1 hc).2]; decide
    · exact h2 c hc
  · simp [padded]; omega
  · rw [padded, natOf_zeros, h3]

/-- a number in fixed notation is the nearest one with so many decimals -/
theorem fixedText_shows {p : Nat} (hp : 0 < p) (x : ℝ) : Shows p x (fixedText p x) := by
  set n := (roundEven (|x| * 10 ^ p)).toNat with hn
  have hpow : (0 : ℝ) < 10 ^ p := by positivity
  have h0 : 0 ≤ roundEven (|x| * 10 ^ p) :=
    le_trans (Int.floor_nonneg.2 (by positivity)) (roundEven_ge _)
  have hc : ((roundEven (|x| * 10 ^ p) : ℤ) : ℝ) = (n : ℝ) := by
    rw [hn]
    exact_mod_cast (Int.toNat_of_nonneg h0).symm
  have herr : abs ((n : ℝ) / 10 ^ p - |x|) ≤ 1 / 2 / 10 ^ p := by
    have h := roundEven_err (|x| * 10 ^ p)
    rw [hc] at h
    have : (n : ℝ) / 10 ^ p - |x| = ((n : ℝ) - |x| * 10 ^ p) / 10 ^ p := by field_simp
    rw [this, abs_div, abs_of_pos hpow]
    gcongr
  obtain ⟨d1, d2⟩ := decimal_shows (n / 10 ^ p)
  obtain ⟨e1, e2, e3⟩ := padded_shows (n := n % 10 ^ p) hp (Nat.mod_lt _ (by positivity))
  have hv : (natOf (decimal (n / 10 ^ p)) : ℝ) + natOf (padded p (n % 10 ^ p)) / 10 ^ p = n / 10 ^ p := by
    rw [d2, e3]
    have : (n : ℝ) = (10 ^ p : ℕ) * (n / 10 ^ p : ℕ) + (n % 10 ^ p : ℕ) := by exact_mod_cast (Nat.div_add_mod n (10 ^ p)).symm
    push_cast at this
    rw [this]
    field_simp
  unfold fixedText
  simp only [← hn, if_neg hp.ne']
  by_cases hx : x < 0
  · have hd := Denotes.neg d1 e1 e2
    refine ⟨_, by simp only [hx, if_true]; exact hd, ?_⟩
    rw [hv]
    rw [abs_of_neg hx] at herr
    rw [show -((n : ℝ) / 10 ^ p) - x = -((n : ℝ) / 10 ^ p - -x) by ring, abs_neg]
    exact herr
  · have hd := Denotes.pos d1 e1 e2
    refine ⟨_, by simp only [hx, if_false]; exact hd, ?_⟩
    rw [hv]
    rw [abs_of_nonneg (not_lt.1 hx)] at herr
    exact herr

theorem unlines_append (a b : List (List Char)) : unlines (a ++ b) = unlines a ++ unlines b := by
  induction a with
  | nil => rfl
  | cons l a ih => simp [unlines, ih]

variable (general : Nat → ℝ → List Char) (rnd : ℝ → ℝ)

/-- a line of a time, while the stream is in fixed notation -/
theorem timeLine_eq {s : Stream} (hs : s.fixed = true) (label : String) (x : ℝ) :
    s.timeLine general label x = { s with text := s.text ++ unlines [timeOf label (fixedText s.precision x)] } := by
  simp [Stream.timeLine, Stream.str, Stream.num, Stream.endl, hs, unlines, timeOf]

theorem shareLine_eq (s : Stream) (n : Nat) (e : ResultStatus × Nat) :
    s.shareLine general rnd n e = ⟨s.text ++ unlines [shareOf e.1.text (fixedText 2 (rnd (rnd ((e.2 : ℝ) / (n : ℝ)) * 100)))], true, 2⟩ := by
  simp [Stream.shareLine, Stream.str, Stream.num, Stream.endl, Stream.setFixed, unlines, shareOf]

theorem shares_eq (n : Nat) (es : List (ResultStatus × Nat)) : ∀ s : Stream, es ≠ [] →
    es.foldl (Stream.shareLine general rnd n) s =
      ⟨s.text ++ unlines (es.map fun e => shareOf e.1.text (fixedText 2 (rnd (rnd ((e.2 : ℝ) / (n : ℝ)) * 100)))), true, 2⟩ := by
  induction es with
  | nil => intro s h; exact absurd rfl h
  | cons e es ih =>
    intro s _
    rw [List.foldl_cons, shareLine_eq]
    by_cases hes : es = []
    · subst hes; rfl
    · rw [ih _ hes]
      simp [unlines]

/-- the number of decimals of the total -/
noncomputable def SolutionStats.totalDigits (st : SolutionStats) : Nat := if st.entries.isEmpty then 6 else 2

/-- what is printed -/
theorem print_eq (s : Stream) (st : SolutionStats) :
    s.print general rnd st = ⟨s.text ++ unlines (["Solution stats:".toList,
      timeOf "min" (fixedText 6 st.minSolutionTime), timeOf "max" (fixedText 6 st.maxSolutionTime),
      timeOf "avg" (fixedText 6 st.averageSolutionTime), timeOf "std" (fixedText 6 st.standardDeviation)] ++
      (if st.entries.isEmpty then [] else "Solution status percentages:".toList :: st.entries.map fun e =>
        shareOf e.1.text (fixedText 2 (rnd (rnd ((e.2 : ℝ) / (st.numberOfSolutions : ℝ)) * 100)))) ++
      ["Total time and number of solutions:".toList, timeOf "tot" (fixedText st.totalDigits st.totalSolutionTime),
        "  - num: ".toList ++ decimal st.numberOfSolutions]), true, st.totalDigits⟩ := by
  unfold Stream.print SolutionStats.totalDigits
  by_cases he : st.entries.isEmpty = true
  · simp only [he, if_true]
    rw [timeLine_eq _ rfl, timeLine_eq _ rfl, timeLine_eq _ rfl, timeLine_eq _ rfl, timeLine_eq _ rfl]
    simp [Stream.str, Stream.endl, Stream.nat, Stream.setFixed, unlines]
  · have hne : st.entries ≠ [] := by simpa using he
    simp only [if_neg he]
    have e4 : ∀ a b c d : ℝ, (((((s.setFixed 6).str "Solution stats:").endl.timeLine general "min" a).timeLine general "max" b).timeLine
        general "avg" c).timeLine general "std" d = ⟨s.text ++ unlines ["Solution stats:".toList, timeOf "min" (fixedText 6 a),
          timeOf "max" (fixedText 6 b), timeOf "avg" (fixedText 6 c), timeOf "std" (fixedText 6 d)], true, 6⟩ := by
      intro a b c d
      rw [timeLine_eq _ rfl, timeLine_eq _ rfl, timeLine_eq _ rfl, timeLine_eq _ rfl]
      simp [Stream.str, Stream.endl, Stream.setFixed, unlines]
    rw [e4]
    rw [shares_eq _ _ _ _ _ hne, timeLine_eq _ rfl]
    simp [Stream.str, Stream.endl, Stream.nat, unlines, unlines_append]

end Mpc
