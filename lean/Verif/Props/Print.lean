import Verif.Proofs.Print
import Verif.Props.Statistics

/-
C118: the printed statistics.
-/
namespace Mpc.Props
open Mpc.Spec
noncomputable section

variable {big t0 : ℝ} {ops : List StatOp} {p : Profiler} (general : Nat → ℝ → List Char)

/-- C118 as stated, first part: the printed statistics are the report on the calls since the last reset, with all times in
microseconds. -/
def C118Report : Prop := ∀ (general : Nat → ℝ → List Char) (big t0 : ℝ) (ops : List StatOp) (p : Profiler) (s : Stream),
  Representable big ops → (Profiler.new big t0).exec big ops = .ok p →
  ∃ t, (s.print general id p.stats).text = s.text ++ t ∧ Report 6 ops p.stats.standardDeviation t

/-- C118 as stated, second part: what the program prints afterwards has the format it had before. -/
def C118Format : Prop := ∀ (general : Nat → ℝ → List Char) (big t0 : ℝ) (ops : List StatOp) (p : Profiler) (s : Stream) (x : ℝ),
  Representable big ops → (Profiler.new big t0).exec big ops = .ok p →
  ((s.print general id p.stats).num general x).text = (s.print general id p.stats).text ++
    if s.fixed then fixedText s.precision x else general s.precision x

theorem entries_eq (hr : Representable big ops) (h : (Profiler.new big t0).exec big ops = .ok p) :
    p.stats.entries = ([ResultStatus.SUCCESS, .MAX_ITERATION, .INFEASIBLE, .ERROR, .UNKNOWN].filter fun st => timesSeen ops st ≠ 0).map
      fun st => (st, timesSeen ops st) := by
  have h1 := (c27_histogram hr h).1
  have key : ∀ st, p.stats.solutionsStates st = if timesSeen ops st ≠ 0 then some (timesSeen ops st) else none := by
    intro st
    have e : timesSeen ops st = countOf ops st := rfl
    split_ifs with h0
    · exact (h1 st _).2 ⟨Nat.pos_of_ne_zero h0, rfl⟩
    · cases hc : p.stats.solutionsStates st with
      | none => rfl
      | some c =>
        have := (h1 st c).1 hc
        rw [e] at h0
        omega
  unfold SolutionStats.entries
  generalize [ResultStatus.SUCCESS, .MAX_ITERATION, .INFEASIBLE, .ERROR, .UNKNOWN] = L
  induction L with
  | nil => rfl
  | cons st L ih =>
    rw [List.filterMap_cons, key]
    by_cases h0 : timesSeen ops st ≠ 0
    · rw [if_pos h0, List.filter_cons_of_pos (by simpa using h0), ih]; rfl
    · rw [if_neg h0, List.filter_cons_of_neg (by simpa using h0), ih]; rfl

theorem entries_empty (hr : Representable big ops) (h : (Profiler.new big t0).exec big ops = .ok p) :
    p.stats.entries.isEmpty = true ↔ durations ops = [] := by
  have h2 := (c27_histogram hr h).2
  have h3 := (c25_statistics hr h).1
  rw [entries_eq hr h, ← List.length_eq_zero_iff, ← h3, ← h2]
  simp only [List.isEmpty_iff, List.map_eq_nil_iff, List.filter_eq_nil_iff]
  constructor
  · intro hh
    have e : ∀ st : ResultStatus, countOf ops st = 0 := by
      intro st
      have := hh st (by cases st <;> simp)
      have e : timesSeen ops st = countOf ops st := rfl
      simpa [e] using this
    simp [e]
  · intro hh st _
    have e : timesSeen ops st = countOf ops st := rfl
    rw [e]
    cases st <;> simp <;> omega

/-- the decimals of the printed total: six without solutions, two otherwise -/
def decimalsOfTotal (ops : List StatOp) : Nat := if durations ops = [] then 6 else 2

theorem totalDigits_eq (hr : Representable big ops) (h : (Profiler.new big t0).exec big ops = .ok p) :
    p.stats.totalDigits = decimalsOfTotal ops := by
  unfold SolutionStats.totalDigits decimalsOfTotal
  by_cases he : durations ops = []
  · rw [if_pos he, if_pos ((entries_empty hr h).2 he)]
  · rw [if_neg he, if_neg (fun hh => he ((entries_empty hr h).1 hh))]

/-- C118, partial: the printed statistics are the report on the calls since the last reset, but the total time is rounded to
hundredths of a second. (The value of the standard deviation: C26.) -/
theorem c118_report_partial (hr : Representable big ops) (h : (Profiler.new big t0).exec big ops = .ok p) (s : Stream) :
    ∃ t, (s.print general id p.stats).text = s.text ++ t ∧ Report (decimalsOfTotal ops) ops p.stats.standardDeviation t := by
  obtain ⟨h1, h2, h3, h4⟩ := c25_statistics hr h
  rw [print_eq]
  refine ⟨_, rfl, ?_⟩
  rw [totalDigits_eq hr h]
  refine ⟨fixedText 6 p.stats.minSolutionTime, fixedText 6 p.stats.maxSolutionTime, fixedText 6 p.stats.averageSolutionTime,
    fixedText 6 p.stats.standardDeviation, fixedText (decimalsOfTotal ops) p.stats.totalSolutionTime,
    decimal p.stats.numberOfSolutions, p.stats.entries.map fun e => (e.1, fixedText 2 ((e.2 : ℝ) / p.stats.numberOfSolutions * 100)),
    ?_, ⟨_, fixedText_shows (by norm_num) _, fun hne => (h3 hne).2.1⟩, ⟨_, fixedText_shows (by norm_num) _, fun hne => (h3 hne).2.2⟩,
    ?_, fixedText_shows (by norm_num) _, ?_, ?_, ?_, ?_⟩
  · by_cases he : durations ops = []
    · rw [if_pos he, if_pos ((entries_empty hr h).2 he)]
    · rw [if_neg he, if_neg (fun hh => he ((entries_empty hr h).1 hh)), List.map_map]
      have : ∀ st : ResultStatus, st.text = nameOf st := by intro st; cases st <;> rfl
      simp only [this, id]
      rfl
  · have : p.stats.averageSolutionTime = mean (durations ops) := by
      by_cases he : durations ops = []
      · rw [(h4 he).1, he]; simp [mean]
      · exact (h3 he).1
    rw [← this]
    exact fixedText_shows (by norm_num) _
  · rw [← h2]
    exact fixedText_shows (by unfold decimalsOfTotal; split_ifs <;> norm_num) _
  · rw [← h1]
    exact decimal_shows _
  · rw [List.map_map, entries_eq hr h, List.map_map]
    simp [Function.comp_def]
  · intro e he
    obtain ⟨e', he', rfl⟩ := List.mem_map.1 he
    rw [entries_eq hr h] at he'
    obtain ⟨st, -, rfl⟩ := List.mem_map.1 he'
    rw [← h1]
    exact fixedText_shows (by norm_num) _

/-- non-vacuity: a history with two solutions after a reset -/
example : Representable 100 statSample ∧ ∃ p, (Profiler.new 100 0).exec 100 statSample = .ok p := ⟨statSample_rep, statSample_ok⟩

/-- C118, partial: the program's own numbers are printed afterwards in fixed notation with the decimals of the total, whatever
the format of the stream was. -/
theorem c118_format_partial (hr : Representable big ops) (h : (Profiler.new big t0).exec big ops = .ok p) (s : Stream) (x : ℝ) :
    ((s.print general id p.stats).num general x).text = (s.print general id p.stats).text ++ fixedText (decimalsOfTotal ops) x := by
  rw [print_eq, totalDigits_eq hr h]
  rfl

/-! ### the text determines its lines -/

theorem unlines_inj : ∀ {a b : List (List Char)}, (∀ l ∈ a, '\n' ∉ l) → (∀ l ∈ b, '\n' ∉ l) → unlines a = unlines b → a = b := by
  have cut : ∀ {l l' r r' : List Char}, '\n' ∉ l → '\n' ∉ l' → l ++ '\n' :: r = l' ++ '\n' :: r' → l = l' ∧ r = r' := by
    intro l
    induction l with
    | nil =>
      intro l' r r' _ h' e
      cases l' with
      | nil => exact ⟨rfl, by simpa using e⟩
      | cons c l' =>
        simp only [List.nil_append, List.cons_append, List.cons.injEq] at e
        exact absurd (by rw [← e.1]; simp) h'
    | cons c l ih =>
      intro l' r r' h h' e
      cases l' with
      | nil =>
        simp only [List.nil_append, List.cons_append, List.cons.injEq] at e
        exact absurd (by rw [e.1]; simp) h
      | cons c' l' =>
        simp only [List.cons_append, List.cons.injEq] at e
        simp only [List.mem_cons, not_or] at h h'
        obtain ⟨rfl, e2⟩ := ih h.2 h'.2 e.2
        exact ⟨by rw [e.1], e2⟩
  intro a
  induction a with
  | nil =>
    intro b _ _ e
    cases b with
    | nil => rfl
    | cons l b => simp [unlines] at e
  | cons l a ih =>
    intro b ha hb e
    cases b with
    | nil => simp [unlines] at e
    | cons l' b =>
      obtain ⟨rfl, e2⟩ := cut (ha l (by simp)) (hb l' (by simp)) e
      rw [ih (fun x hx => ha x (by simp [hx])) (fun x hx => hb x (by simp [hx])) e2]

theorem digits_plain {l : List Char} (h : IsDigits l) {c : Char} (hc : ¬ '0' ≤ c) : c ∉ l := fun hm =>
  absurd (h.2 c hm).1 hc

theorem shows_plain {q : Nat} {x : ℝ} {t : List Char} (h : Shows q x t) : '\n' ∉ t := by
  obtain ⟨v, h, -⟩ := h
  have key : ∀ {a b : List Char}, IsDigits a → IsDigits b → '\n' ∉ a ++ '.' :: b := by
    intro a b ha hb hm
    rcases List.mem_append.1 hm with hm | hm
    · exact digits_plain ha (by decide) hm
    · rcases List.mem_cons.1 hm with hm | hm
      · exact absurd hm (by decide)
      · exact digits_plain hb (by decide) hm
  cases h with
  | pos ha hb _ => exact key ha hb
  | neg ha hb _ =>
    intro hm
    rcases List.mem_cons.1 hm with hm | hm
    · exact absurd hm (by decide)
    · exact key ha hb hm

/-- a numeral tells the number of its decimals -/
theorem denotes_decimals {q r : Nat} {t : List Char} {v w : ℝ} (h : Denotes q t v) (h' : Denotes r t w) : q = r := by
  have last : ∀ {a b a' b' : List Char}, IsDigits a → IsDigits a' → a ++ '.' :: b = a' ++ '.' :: b' → b = b' := by
    intro a
    induction a with
    | nil => intro b a' b' h; exact absurd rfl h.1
    | cons c a ih =>
      intro b a' b' h h' e
      cases a' with
      | nil => exact absurd rfl h'.1
      | cons c' a' =>
        simp only [List.cons_append, List.cons.injEq] at e
        by_cases ha : a = []
        · by_cases ha' : a' = []
          · subst ha ha'
            simpa using e.2
          · subst ha
            cases a' with
            | nil => exact absurd rfl ha'
            | cons c2 a' =>
              have : '.' = c2 := by simpa using (List.cons.inj e.2).1
              exact absurd (h'.2 c2 (by simp)).1 (by rw [← this]; decide)
        · by_cases ha' : a' = []
          · subst ha'
            cases a with
            | nil => exact absurd rfl ha
            | cons c2 a =>
              have : c2 = '.' := by simpa using (List.cons.inj e.2).1
              exact absurd (h.2 c2 (by simp)).1 (by rw [this]; decide)
          · exact ih ⟨ha, fun x hx => h.2 x (by simp [hx])⟩ ⟨ha', fun x hx => h'.2 x (by simp [hx])⟩ e.2
  have sign : ∀ {a b : List Char}, IsDigits a → ∀ l, '-' :: l ≠ a ++ '.' :: b := by
    intro a b ha l e
    cases a with
    | nil => exact ha.1 rfl
    | cons c a =>
      have : '-' = c := (List.cons.inj e).1
      exact absurd (ha.2 c (by simp)).1 (by rw [← this]; decide)
  generalize ht : t = t' at h'
  cases h with
  | pos ha hb hl =>
    cases h' with
    | pos ha' hb' hl' => rw [← hl, ← hl', last ha ha' ht]
    | neg ha' hb' hl' => exact absurd ht.symm (sign ha _)
  | neg ha hb hl =>
    cases h' with
    | pos ha' hb' hl' => exact absurd ht (sign ha' _)
    | neg ha' hb' hl' => rw [← hl, ← hl', last ha ha' (List.cons.inj ht).2]

/-- one solution of 4 ms -/
def fourMs : List StatOp := [.optimize 0 (1 / 250) (some .SUCCESS)]

theorem fourMs_rep : Representable 1 fourMs := by
  intro a b st h
  simp only [fourMs, List.mem_singleton, StatOp.optimize.injEq] at h
  obtain ⟨rfl, rfl, -⟩ := h
  norm_num

theorem fourMs_durations : durations fourMs = [1 / 250] := by
  simp [durations, recorded, sinceReset, isReset, entry, fourMs, List.takeWhile]

/-- C118 is violated: after a solution the total time is printed with two decimals. -/
theorem c118_report_violated : ¬ C118Report := by
  intro hc
  obtain ⟨p, hp⟩ := c25_no_overflow (t0 := 0) fourMs_rep (by simp [fourMs])
  obtain ⟨t, e, h6⟩ := hc (fun _ _ => []) _ _ _ _ ⟨[], false, 6⟩ fourMs_rep hp
  obtain ⟨t', e', h2⟩ := c118_report_partial (fun _ _ => []) fourMs_rep hp ⟨[], false, 6⟩
  rw [e] at e'
  have : t = t' := by simpa using e'
  subst this
  have hne : durations fourMs ≠ [] := by rw [fourMs_durations]; simp
  have hd : decimalsOfTotal fourMs = 2 := by rw [decimalsOfTotal, if_neg hne]
  rw [hd] at h2
  have plain : ∀ {q tmin tmax tavg tstd ttot tnum} {shares : List (ResultStatus × List Char)} {x0 x1 x2 x3 x4 : ℝ} {n : Nat},
      Shows 6 x0 tmin → Shows 6 x1 tmax → Shows 6 x2 tavg → Shows 6 x3 tstd → Shows q x4 ttot → ShowsNat n tnum →
      (∀ e ∈ shares, Shows 2 ((timesSeen fourMs e.1 : ℝ) / (durations fourMs).length * 100) e.2) →
      ∀ l ∈ (["Solution stats:".toList, timeOf "min" tmin, timeOf "max" tmax, timeOf "avg" tavg, timeOf "std" tstd] ++
      ("Solution status percentages:".toList :: shares.map fun e => shareOf (nameOf e.1) e.2) ++
      ["Total time and number of solutions:".toList, timeOf "tot" ttot, "  - num: ".toList ++ tnum]), '\n' ∉ l := by
    intro q tmin tmax tavg tstd ttot tnum shares x0 x1 x2 x3 x4 n a0 a1 a2 a3 a4 a5 a6 l hl
    have k0 := shows_plain a0
    have k1 := shows_plain a1
    have k2 := shows_plain a2
    have k3 := shows_plain a3
    have k4 := shows_plain a4
    have k5 := digits_plain a5.1 (c := '\n') (by decide)
    simp only [List.mem_append, List.mem_cons, List.mem_map, List.not_mem_nil, or_false] at hl
    rcases hl with ((rfl | rfl | rfl | rfl | rfl) | (rfl | ⟨e, he, rfl⟩)) | (rfl | rfl | rfl)
    · decide
    · simp [timeOf, k0]
    · simp [timeOf, k1]
    · simp [timeOf, k2]
    · simp [timeOf, k3]
    · decide
    · have := shows_plain (a6 e he)
      cases h : e.1 <;> simp [shareOf, nameOf, this]
    · decide
    · simp [timeOf, k4]
    · simp [k5]
  obtain ⟨tmin, tmax, tavg, tstd, ttot, tnum, shares, e1, ⟨_, a0, -⟩, ⟨_, a1, -⟩, a2, a3, a4, a5, a6, a7⟩ := h6
  obtain ⟨tmin', tmax', tavg', tstd', ttot', tnum', shares', e2, ⟨_, b0, -⟩, ⟨_, b1, -⟩, b2, b3, b4, b5, b6, b7⟩ := h2
  rw [if_neg hne] at e1 e2
  have := unlines_inj (plain a0 a1 a2 a3 a4 a5 a7) (plain b0 b1 b2 b3 b4 b5 b7) (e1.symm.trans e2)
  have hlast := congrArg List.reverse this
  simp only [List.reverse_append, List.reverse_cons, List.reverse_nil, List.nil_append, List.cons_append] at hlast
  have htot := (List.cons.inj (List.cons.inj hlast).2).1
  have : ttot = ttot' := by simpa [timeOf] using htot
  subst this
  obtain ⟨_, d1, -⟩ := a4
  obtain ⟨_, d2, -⟩ := b4
  exact absurd (denotes_decimals d1 d2) (by norm_num)

/-- C118 is violated: a program which prints a number in the default notation after the statistics prints another text than
before. -/
theorem c118_format_violated : ¬ C118Format := by
  intro hc
  obtain ⟨p, hp⟩ := c25_no_overflow (t0 := 0) fourMs_rep (by simp [fourMs])
  have h1 := hc (fun _ _ => ['x']) _ _ _ _ ⟨[], false, 6⟩ 1 fourMs_rep hp
  have h2 := c118_format_partial (fun _ _ => ['x']) fourMs_rep hp ⟨[], false, 6⟩ 1
  rw [h1] at h2
  have h3 : ['x'] = fixedText (decimalsOfTotal fourMs) 1 := by simpa using h2
  have hne : durations fourMs ≠ [] := by rw [fourMs_durations]; simp
  rw [decimalsOfTotal, if_neg hne] at h3
  obtain ⟨v, h4, -⟩ := fixedText_shows (p := 2) (by norm_num) 1
  rw [← h3] at h4
  have : ∀ {t : List Char}, Denotes 2 t v → '.' ∈ t := by
    intro t h
    cases h <;> simp
  exact absurd (this h4) (by decide)

/-- C118, partial: before the first solution, the largest number stands for the shortest time and its negative for the longest. -/
theorem c118_unused_partial (hr : Representable big ops) (h : (Profiler.new big t0).exec big ops = .ok p) (he : durations ops = [])
    (s : Stream) : ∃ tmin tmax r, (s.print general id p.stats).text = s.text ++ "Solution stats:\n".toList ++ timeOf "min" tmin ++ ['\n'] ++
      timeOf "max" tmax ++ ['\n'] ++ r ∧ Shows 6 big tmin ∧ Shows 6 (-big) tmax := by
  have hi := exec_statInv ops hr h
  have hrec : recorded ops = [] := by simpa [durations] using he
  have e1 : p.stats.minSolutionTime = big := by
    rcases hi.minMem with ⟨hm, -⟩ | ⟨-, hm⟩
    · exact absurd hrec hm
    · exact hm
  have e2 : p.stats.maxSolutionTime = -big := by
    rcases hi.maxMem with ⟨hm, -⟩ | ⟨-, hm⟩
    · exact absurd hrec hm
    · exact hm
  rw [print_eq, e1, e2]
  have key : ∀ (a b : List Char) (l : List (List Char)) (l' l'' : List (List Char)), ∃ r, s.text ++
      unlines ((["Solution stats:".toList, a, b] ++ l) ++ l' ++ l'') = s.text ++ "Solution stats:\n".toList ++ a ++ ['\n'] ++
      b ++ ['\n'] ++ r := fun a b l l' l'' => ⟨unlines (l ++ l' ++ l''), by simp [unlines]⟩
  obtain ⟨r, hr⟩ := key (timeOf "min" (fixedText 6 big)) (timeOf "max" (fixedText 6 (-big))) [_, _] _ _
  exact ⟨_, _, r, hr, fixedText_shows (by norm_num) _, fixedText_shows (by norm_num) _⟩

/-- non-vacuity: a call which left with an exception is no solution -/
example : durations [.optimize 0 1 none] = [] ∧ Representable 1 [.optimize 0 1 none] := by
  constructor
  · simp [durations, recorded, sinceReset, isReset, entry, List.takeWhile]
  · intro a b st h
    simp only [List.mem_singleton, StatOp.optimize.injEq] at h
    obtain ⟨rfl, rfl, -⟩ := h
    norm_num

/-- C118, an example: 4 ms are printed as `0.004000` among the times and as `0.00` in the total. -/
theorem c118_sample_violated : fixedText 6 (1 / 250) = "0.004000".toList ∧ fixedText 2 (1 / 250) = "0.00".toList := by
  have e1 : roundEven (|(1 / 250 : ℝ)| * 10 ^ 6) = 4000 := by
    rw [show |(1 / 250 : ℝ)| * 10 ^ 6 = ((4000 : ℤ) : ℝ) by rw [abs_of_pos (by norm_num)]; norm_num, roundEven_int]
  have e2 : roundEven (|(1 / 250 : ℝ)| * 10 ^ 2) = 0 := by
    rw [abs_of_pos (by norm_num)]
    have : ⌊(1 / 250 * 10 ^ 2 : ℝ)⌋ = 0 := by rw [Int.floor_eq_iff]; norm_num
    unfold roundEven
    rw [this, if_pos (by norm_num)]
  constructor
  · unfold fixedText
    rw [e1]
    norm_num [decimal, padded]
    decide
  · unfold fixedText
    rw [e2]
    norm_num [decimal, padded]
    decide

/-- C118, partial: the printed shares add to one hundred percent, up to half a hundredth for each of them. -/
theorem c118_shares_partial (hr : Representable big ops) (h : (Profiler.new big t0).exec big ops = .ok p) (hne : durations ops ≠ [])
    {shares : List (ResultStatus × ℝ)}
    (h1 : shares.map Prod.fst = [ResultStatus.SUCCESS, .MAX_ITERATION, .INFEASIBLE, .ERROR, .UNKNOWN].filter (fun st => timesSeen ops st ≠ 0))
    (h2 : ∀ e ∈ shares, |e.2 - (timesSeen ops e.1 : ℝ) / (durations ops).length * 100| ≤ 1 / 2 / 10 ^ 2) :
    |(shares.map Prod.snd).sum - 100| ≤ shares.length * (1 / 2 / 10 ^ 2) := by
  have hs := (c27_percentages hr h).2 hne
  have hn : (p.stats.numberOfSolutions : ℝ) = (durations ops).length := by rw [(c25_statistics hr h).1]
  have e : p.stats.percentages = shares.map fun e => (e.1, (timesSeen ops e.1 : ℝ) / (durations ops).length * 100) := by
    have e1 : p.stats.percentages = p.stats.entries.map fun e => (e.1, (e.2 : ℝ) / (p.stats.numberOfSolutions : ℝ) * 100) := by
      unfold SolutionStats.percentages SolutionStats.entries
      rw [List.map_filterMap]
      congr 1
      funext st
      cases p.stats.solutionsStates st <;> rfl
    rw [e1, entries_eq hr h, ← h1, List.map_map, List.map_map, hn]
    rfl
  rw [e, List.map_map] at hs
  have key : ∀ l : List (ResultStatus × ℝ), (∀ e ∈ l, |e.2 - (timesSeen ops e.1 : ℝ) / (durations ops).length * 100| ≤ 1 / 2 / 10 ^ 2) →
      |(l.map Prod.snd).sum - (l.map (Prod.snd ∘ fun e => (e.1, (timesSeen ops e.1 : ℝ) / (durations ops).length * 100))).sum| ≤
        l.length * (1 / 2 / 10 ^ 2) := by
    intro l
    induction l with
    | nil => simp
    | cons a l ih =>
      intro hl
      have i1 := ih fun e he => hl e (by simp [he])
      have i2 := hl a (by simp)
      simp only [List.map_cons, List.sum_cons, List.length_cons, Function.comp_apply] at i1 ⊢
      rw [abs_le] at i1 i2 ⊢
      push_cast
      constructor <;> linarith [i1.1, i1.2, i2.1, i2.2]
  rw [← hs]
  exact key shares h2

end
end Mpc.Props
