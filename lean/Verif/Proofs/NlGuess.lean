import Verif.Proofs.NlFill

/-
Bounds, cold fill, shift and initial point of the nonlinear optimizer.
-/
namespace Mpc
open Exec
set_option linter.unusedSectionVars false

variable {K : Type} [Field K] [LinearOrder K] [IsStrictOrderedRing K]

namespace NlOpt

/-- entry `v` is the entry for component `j` of a step in `[start, stop)` -/
def Addressed (off n start stop v : Nat) : Prop := off ≤ v ∧ 0 < n ∧ start ≤ (v - off) / n ∧ (v - off) / n < stop

instance (off n start stop v : Nat) : Decidable (Addressed off n start stop v) := by unfold Addressed; infer_instance

theorem addressed_iff {off n start stop v : Nat} :
    Addressed off n start stop v ↔ ∃ i j, start ≤ i ∧ i < stop ∧ j < n ∧ v = off + (i * n + j) := by
  constructor
  · rintro ⟨h1, h2, h3, h4⟩
    refine ⟨(v - off) / n, (v - off) % n, h3, h4, Nat.mod_lt _ h2, ?_⟩
    have := Nat.div_add_mod (v - off) n
    rw [Nat.mul_comm] at this
    omega
  · rintro ⟨i, j, h1, h2, h3, rfl⟩
    have : off + (i * n + j) - off = i * n + j := by omega
    refine ⟨by omega, by omega, ?_, ?_⟩ <;> rw [this, block_div _ h3] <;> assumption

/-- contents after `fillBounds` -/
def Filled (lo : Vec (Ext K)) (off n start stop : Nat) (b b' : Vec (Ext K)) : Prop :=
  b'.size = b.size ∧
    ∀ v, b'.get v = if Addressed off n start stop v then lo.get ((v - off) % n) else b.get v

theorem fillBounds_inv {lo up : Vec (Ext K)} {off n start stop : Nat} {b b' : Vec (Ext K) × Vec (Ext K)}
    (hw : stop ≤ start ∨ off + stop * n ≤ 2 ^ 64) (h : fillBounds lo up off n start stop b = .ok b') :
    Filled lo off n start stop b.1 b'.1 ∧ Filled up off n start stop b.2 b'.2 := by
  unfold fillBounds at h
  have key : ∀ {π : Vec (Ext K) × Vec (Ext K) → Vec (Ext K)} {f : Vec (Ext K)},
      ((π b').size = (π b).size ∧
      (∀ i j, start ≤ i → i < start + (stop - start) → j < n → (π b').get (off + (i * n + j)) = f.get j) ∧
      ∀ p, (∀ i j, start ≤ i → i < start + (stop - start) → j < n → p ≠ off + (i * n + j)) →
        (π b').get p = (π b).get p) → Filled f off n start stop (π b) (π b') := by
    rintro π f ⟨h1, h2, h3⟩
    refine ⟨h1, fun v => ?_⟩
    by_cases hv : Addressed off n start stop v
    · rw [if_pos hv]
      obtain ⟨i, j, a1, a2, a3, rfl⟩ := addressed_iff.1 hv
      rw [h2 i j a1 (by omega) a3, show off + (i * n + j) - off = i * n + j by omega, block_mod _ a3]
    · rw [if_neg hv]
      exact h3 v (fun i j a1 a2 a3 he => hv (addressed_iff.2 ⟨i, j, a1, by omega, a3, he⟩))
  have hb : ∀ (i j : Nat) (s s' : Vec (Ext K) × Vec (Ext K)), start ≤ i → i < start + (stop - start) → j < n → (do
      let l ← lo.at? j
      let u ← up.at? j
      let x ← s.1.set (boundIx off n i j) l
      let y ← s.2.set (boundIx off n i j) u
      return (x, y) : Exec (Vec (Ext K) × Vec (Ext K))) = .ok s' →
      s'.1 = s.1.setRaw (off + (i * n + j)) (lo.get j) ∧ s'.2 = s.2.setRaw (off + (i * n + j)) (up.get j) := by
    intro i j s s' hi hi' hj h
    have hix : boundIx off n i j = off + (i * n + j) := by
      have := block_lt (n := stop) hj (show i < stop by omega)
      unfold boundIx
      exact Nat.mod_eq_of_lt (by omega)
    rw [hix] at h
    obtain ⟨l, hl, h⟩ := bind_eq_ok.1 h
    obtain ⟨u, hu, h⟩ := bind_eq_ok.1 h
    obtain ⟨x, hx, h⟩ := bind_eq_ok.1 h
    obtain ⟨y, hy, h⟩ := bind_eq_ok.1 h
    cases h
    obtain ⟨-, rfl⟩ := Vec.at_eq_ok hl
    obtain ⟨-, rfl⟩ := Vec.at_eq_ok hu
    exact ⟨(Vec.set_eq_ok hx).2, (Vec.set_eq_ok hy).2⟩
  exact ⟨key (π := Prod.fst) (fill_inv Prod.fst _ (fun _ j => lo.get j)
      (fun i j s s' hi hi' hj he => (hb i j s s' hi hi' hj he).1) h),
    key (π := Prod.snd) (fill_inv Prod.snd _ (fun _ j => up.get j)
      (fun i j s s' hi hi' hj he => (hb i j s s' hi hi' hj he).2) h)⟩

theorem fillBounds_total {lo up : Vec (Ext K)} {off n start stop N : Nat} {b : Vec (Ext K) × Vec (Ext K)}
    (h1 : lo.size = n) (h2 : up.size = n) (hb1 : b.1.size = N) (hb2 : b.2.size = N)
    (hs : stop ≤ start ∨ off + stop * n ≤ N ∨ 2 ^ 64 ≤ N) :
    Post (fillBounds lo up off n start stop b) (fun b' => b'.1.size = N ∧ b'.2.size = N) := by
  unfold fillBounds
  refine fill_total (σ := Vec (Ext K) × Vec (Ext K)) (fun s => s.1.size = N ∧ s.2.size = N) _ ?_ ⟨hb1, hb2⟩
  rintro i j ⟨x, y⟩ hi hi' hj ⟨hx, hy⟩
  dsimp only at hx hy ⊢
  have hlt : boundIx off n i j < N := by
    have h1 := block_lt (n := stop) hj (show i < stop by omega)
    have h2 : boundIx off n i j ≤ off + (i * n + j) := Nat.mod_le _ _
    have h3 : boundIx off n i j < 2 ^ 64 := Nat.mod_lt _ (by norm_num)
    omega
  rw [Vec.at_ok (by omega), ok_bind, Vec.at_ok (by omega), ok_bind, Vec.set_ok (by omega), ok_bind,
    Vec.set_ok (by omega), ok_bind]
  exact post_pure ⟨hx, hy⟩

/-- a successful loop as a fold over what it does to one component of its state -/
theorem _root_.Mpc.forFrom_fold {σ α : Type} (π : σ → α) (F : Nat → α → α) {f : Nat → σ → Exec σ}
    (hf : ∀ i s s', f i s = .ok s' → π s' = F i (π s)) (cnt : Nat) :
    ∀ {start : Nat} {s s' : σ}, forFrom start cnt s f = .ok s' →
      π s' = (List.range' start cnt).foldl (fun a i => F i a) (π s) := by
  induction cnt with
  | zero =>
    intro start s s' h
    cases h
    rfl
  | succ n ih =>
    intro start s s' h
    unfold forFrom at h
    obtain ⟨t, ht, h⟩ := bind_eq_ok.1 h
    rw [List.range'_succ, List.foldl_cons, ih h, hf _ _ _ ht]

/-- entries of a box after the loop of a setter -/
def written {K : Type} (off n start stop : Nat) (v : Nat → Ext K) (old : Nat → Ext K) : Nat → Ext K :=
  (List.range' start (stop - start)).foldl (fun g i => (List.range' 0 n).foldl
    (fun g j => fun p => if p = boundIx off n i j then v j else g p) g) old

theorem fillBounds_written {lo up : Vec (Ext K)} {off n start stop : Nat} {b b' : Vec (Ext K) × Vec (Ext K)}
    (h : fillBounds lo up off n start stop b = .ok b') :
    (b'.1.size = b.1.size ∧ b'.1.get = written off n start stop lo.get b.1.get) ∧
      b'.2.size = b.2.size ∧ b'.2.get = written off n start stop up.get b.2.get := by
  unfold fillBounds at h
  have hb : ∀ (i j : Nat) (s s' : Vec (Ext K) × Vec (Ext K)), (do
      let l ← lo.at? j
      let u ← up.at? j
      let x ← s.1.set (boundIx off n i j) l
      let y ← s.2.set (boundIx off n i j) u
      return (x, y) : Exec (Vec (Ext K) × Vec (Ext K))) = .ok s' →
      s'.1 = s.1.setRaw (boundIx off n i j) (lo.get j) ∧ s'.2 = s.2.setRaw (boundIx off n i j) (up.get j) := by
    intro i j s s' h
    obtain ⟨l, hl, h⟩ := bind_eq_ok.1 h
    obtain ⟨u, hu, h⟩ := bind_eq_ok.1 h
    obtain ⟨x, hx, h⟩ := bind_eq_ok.1 h
    obtain ⟨y, hy, h⟩ := bind_eq_ok.1 h
    cases h
    obtain ⟨-, rfl⟩ := Vec.at_eq_ok hl
    obtain ⟨-, rfl⟩ := Vec.at_eq_ok hu
    exact ⟨(Vec.set_eq_ok hx).2, (Vec.set_eq_ok hy).2⟩
  have hs : b'.1.size = b.1.size ∧ b'.2.size = b.2.size := by
    refine forFrom_inv (σ := Vec (Ext K) × Vec (Ext K))
      (fun _ q => q.1.size = b.1.size ∧ q.2.size = b.2.size) ⟨rfl, rfl⟩ ?_ h
    intro i s s' _ _ hs hr
    refine forFrom_inv (σ := Vec (Ext K) × Vec (Ext K))
      (fun _ q => q.1.size = b.1.size ∧ q.2.size = b.2.size) hs ?_ hr
    intro j t t' _ _ ht hr
    obtain ⟨e1, e2⟩ := hb i j t t' hr
    rw [e1, e2]
    exact ht
  refine ⟨⟨hs.1, ?_⟩, hs.2, ?_⟩
  · refine forFrom_fold (fun q : Vec (Ext K) × Vec (Ext K) => q.1.get) _ (fun i s s' hr => ?_) _ h
    refine forFrom_fold (fun q : Vec (Ext K) × Vec (Ext K) => q.1.get) _ (fun j t t' hr => ?_) _ hr
    exact congrArg Vec.get (hb i j t t' hr).1
  · refine forFrom_fold (fun q : Vec (Ext K) × Vec (Ext K) => q.2.get) _ (fun i s s' hr => ?_) _ h
    refine forFrom_fold (fun q : Vec (Ext K) × Vec (Ext K) => q.2.get) _ (fun j t t' hr => ?_) _ hr
    exact congrArg Vec.get (hb i j t t' hr).2

/-- without wrap-around the loop writes the addressed entries -/
theorem written_eq {off n start stop : Nat} (hw : stop ≤ start ∨ off + stop * n ≤ 2 ^ 64) (v old : Nat → Ext K) (p : Nat) :
    written off n start stop v old p = if Addressed off n start stop p then v ((p - off) % n) else old p := by
  obtain ⟨b, hb, -⟩ := fillBounds_total (lo := ⟨n, v⟩) (up := ⟨n, v⟩) (off := off) (n := n) (start := start)
    (stop := stop) (N := 2 ^ 64) (b := (⟨2 ^ 64, old⟩, ⟨2 ^ 64, old⟩)) rfl rfl rfl rfl (Or.inr (Or.inr le_rfl))
  obtain ⟨⟨-, h1⟩, -⟩ := fillBounds_inv hw hb
  obtain ⟨⟨-, h2⟩, -⟩ := fillBounds_written hb
  rw [← h1 p, h2]

omit [Field K] [LinearOrder K] [IsStrictOrderedRing K] in
theorem coldFill_post {d : Dims} {x0 u0 v : Vec K} (hx : x0.size = d.nx) (hu : u0.size = d.nu) (hv : v.size = d.nZ) :
    Post (coldFill d x0 u0 v) (fun v' => v'.size = d.nZ ∧
      (∀ k a, k < d.ph → a < d.nx → v'.get (NlSpec.stateIx d k a) = x0.get a) ∧
      (∀ j b, j < d.ch → b < d.nu → v'.get (NlSpec.inputIx d j b) = u0.get b) ∧
      v'.get (NlSpec.slackIx d) = v.get (NlSpec.slackIx d)) := by
  unfold coldFill forRange
  have hcomm : d.nu * d.ch = d.ch * d.nu := Nat.mul_comm _ _
  refine Post.bind (Q := fun w => w.size = d.nZ ∧
      (∀ k a, k < d.ph → a < d.nx → w.get (NlSpec.stateIx d k a) = x0.get a) ∧
      (∀ p, d.ph * d.nx ≤ p → w.get p = v.get p)) ?_ ?_
  · refine post_of_ok (T := fun w => w.size = d.nZ) (fill_total (σ := Vec K) (fun w => w.size = d.nZ) _ ?_ hv) ?_
    · intro i j w _ hi hj hw
      rw [Vec.at_ok (by omega), ok_bind]
      have := block_lt (n := d.ph) hj (show i < d.ph by omega)
      rw [Vec.set_ok (by rw [hw]; unfold Dims.nZ; omega)]
      exact post_ok hw
    · intro w hw hs
      obtain ⟨-, h2, h3⟩ := fill_inv (off := 0) (σ := Vec K) id _ (fun _ j => x0.get j) (by
        intro i j s s' _ _ hj h
        obtain ⟨l, hl, h⟩ := bind_eq_ok.1 h
        obtain ⟨-, rfl⟩ := Vec.at_eq_ok hl
        rw [Nat.zero_add]
        exact (Vec.set_eq_ok h).2) hw
      simp only [Nat.zero_add, id] at h2 h3
      refine ⟨hs, fun k a hk ha => h2 k a (by omega) hk ha, fun p hp => h3 p ?_⟩
      intro i j _ hi hj he
      have := block_lt (n := d.ph) hj hi
      omega
  · rintro w ⟨hw, hw1, hw2⟩
    refine post_of_ok (T := fun w => w.size = d.nZ) (fill_total (σ := Vec K) (fun w => w.size = d.nZ) _ ?_ hw) ?_
    · intro i j w _ hi hj hw
      rw [Vec.at_ok (by omega), ok_bind]
      have := block_lt (n := d.ch) hj (show i < d.ch by omega)
      rw [Vec.set_ok (by rw [hw]; unfold Dims.nZ; omega)]
      exact post_ok hw
    · intro w' hw' hs
      obtain ⟨-, h2, h3⟩ := fill_inv (σ := Vec K) id _ (fun _ j => u0.get j) (by
        intro i j s s' _ _ hj h
        obtain ⟨l, hl, h⟩ := bind_eq_ok.1 h
        obtain ⟨-, rfl⟩ := Vec.at_eq_ok hl
        exact (Vec.set_eq_ok h).2) hw'
      simp only [Nat.zero_add, id] at h2 h3
      refine ⟨hs, ?_, fun j b hj hb => h2 j b (by omega) hj hb, ?_⟩
      · intro k a hk ha
        rw [h3, hw1 k a hk ha]
        intro i j _ hi hj he
        have := block_lt (n := d.ph) ha hk
        unfold NlSpec.stateIx at he
        omega
      · rw [h3, hw2 _ (by unfold NlSpec.slackIx; omega)]
        intro i j _ hi hj he
        have := block_lt (n := d.ch) hj hi
        unfold NlSpec.slackIx at he
        omega

omit [Field K] [LinearOrder K] [IsStrictOrderedRing K] in
theorem shiftInto_post {n s N : Nat} {src dst : Vec K} (hs : n * s ≤ src.size) (hd : dst.size = N) (hN : n * s ≤ N) :
    Post (shiftInto n s src dst) (fun w => w.size = N ∧
      (∀ k a, k < n → a < s → w.get (k * s + a) = src.get (min (k + 1) (n - 1) * s + a)) ∧
      ∀ p, n * s ≤ p → w.get p = dst.get p) := by
  unfold shiftInto forRange
  refine post_of_ok (T := fun w => w.size = N) (fill_total (σ := Vec K) (fun w => w.size = N) _ ?_ hd) ?_
  · intro i j w _ hi hj hw
    have h1 := block_lt (n := n) hj (show i < n by omega)
    split_ifs with h
    · rw [Vec.at_ok (by omega), ok_bind, Vec.set_ok (by omega)]
      exact post_ok hw
    · have h2 := block_lt (n := n) hj (show i + 1 < n by omega)
      rw [Vec.at_ok (by omega), ok_bind, Vec.set_ok (by omega)]
      exact post_ok hw
  · intro w hw hsz
    obtain ⟨-, h2, h3⟩ := fill_inv (off := 0) (σ := Vec K) id _
      (fun i j => if i = n - 1 then src.get (i * s + j) else src.get ((i + 1) * s + j)) (by
      intro i j t t' _ _ hj h
      rw [Nat.zero_add]
      split_ifs at h ⊢ with hi
      · obtain ⟨l, hl, h⟩ := bind_eq_ok.1 h
        obtain ⟨-, rfl⟩ := Vec.at_eq_ok hl
        exact (Vec.set_eq_ok h).2
      · obtain ⟨l, hl, h⟩ := bind_eq_ok.1 h
        obtain ⟨-, rfl⟩ := Vec.at_eq_ok hl
        exact (Vec.set_eq_ok h).2) hw
    simp only [Nat.zero_add, id] at h2 h3
    refine ⟨hsz, ?_, ?_⟩
    · intro k a hk ha
      rw [h2 k a (by omega) hk ha]
      split_ifs with h
      · rw [Nat.min_eq_right (by omega), h]
      · rw [Nat.min_eq_left (by omega)]
    · intro p hp
      refine h3 p ?_
      intro i j _ hi hj he
      have := block_lt (n := n) hj hi
      omega

/-- the initial point made from decision vector `v` -/
structure Shift (d : Dims) (sc : Nat → K) (slack : K) (v g : Vec K) : Prop where
  size : g.size = d.nZ
  state : ∀ k a, k < d.ph → a < d.nx →
    g.get (NlSpec.stateIx d k a) = v.get (NlSpec.stateIx d (min (k + 1) (d.ph - 1)) a)
  input : ∀ j b, j < d.ch → b < d.nu → g.get (NlSpec.inputIx d j b)
    = 1 / sc b * (sc b * v.get (NlSpec.inputIx d (min (j + 1) (d.ch - 1)) b))
  slack : g.get (NlSpec.slackIx d) = slack

theorem shifted_post {d : Dims} {mp : Mapping K} (hm : mp.Good) (hd : mp.dims = d) (junk : Nat → K) (slack : K)
    {v : Vec K} (hv : v.size = d.nZ) :
    Post (shifted d mp junk slack v) (Shift d mp.inputScaling.get slack v) := by
  subst hd
  have hch := hm.ch_pos
  have hle := hm.ch_le
  have hcomm : mp.dims.nu * mp.dims.ch = mp.dims.ch * mp.dims.nu := Nat.mul_comm _ _
  unfold shifted
  dsimp only
  refine Post.bind (shiftInto_post (N := mp.dims.nZ) (by rw [hv]; unfold Dims.nZ; omega) rfl
    (by unfold Dims.nZ; omega)) ?_
  rintro g ⟨hg1, hg2, -⟩
  rw [Vec.seg_ok (by rw [hv]; unfold Dims.nZ; omega), ok_bind, Mat.mulVec_ok hm.iz_cols, ok_bind]
  refine Post.bind (shiftInto_post (n := mp.dims.ph) (s := mp.dims.nu) (N := mp.dims.ph * mp.dims.nu)
    (by dsimp only; rw [hm.iz_rows]) rfl le_rfl) ?_
  rintro umv ⟨hu1, hu2, -⟩
  rw [Mat.mulVec_ok (by rw [hm.iu_cols, hu1]), ok_bind]
  have hres : ∀ j b, j < mp.dims.ch → b < mp.dims.nu →
      sumTo mp.Iu2z.cols (fun k => mp.Iu2z.get (j * mp.dims.nu + b) k * umv.get k)
      = 1 / mp.inputScaling.get b * (mp.inputScaling.get b *
        v.get (NlSpec.inputIx mp.dims (min (j + 1) (mp.dims.ch - 1)) b)) := by
    intro j b hj hb
    rw [hm.compress umv.get hj hb, hu2 j b (by omega) hb]
    dsimp only
    rw [hm.expand (fun i => v.get (mp.dims.ph * mp.dims.nx + i)) (by omega) hb]
    unfold NlSpec.inputIx
    rw [show min (min (j + 1) (mp.dims.ph - 1)) (mp.dims.ch - 1) = min (j + 1) (mp.dims.ch - 1) by omega]
  refine Post.bind (Q := fun g' => g'.size = mp.dims.nZ ∧
    (∀ p, p < mp.dims.ph * mp.dims.nx → g'.get p = g.get p) ∧
    ∀ i, i < mp.dims.nu * mp.dims.ch → g'.get (mp.dims.ph * mp.dims.nx + i)
      = sumTo mp.Iu2z.cols (fun k => mp.Iu2z.get i k * umv.get k)) ?_ ?_
  · refine forRange_post _ _ _ (fun m (g' : Vec K) => g'.size = mp.dims.nZ ∧
      (∀ p, p < mp.dims.ph * mp.dims.nx → g'.get p = g.get p) ∧
      ∀ i, i < m → g'.get (mp.dims.ph * mp.dims.nx + i)
        = sumTo mp.Iu2z.cols (fun k => mp.Iu2z.get i k * umv.get k)) ⟨hg1, fun _ _ => rfl, fun i hi => by omega⟩ ?_
    rintro m g' hmm ⟨q1, q2, q3⟩
    rw [Vec.at_ok (by dsimp only; rw [hm.iu_rows]; exact hmm), ok_bind,
      Vec.set_ok (by rw [q1]; unfold Dims.nZ; omega)]
    refine post_ok ⟨q1, ?_, ?_⟩
    · intro p hp
      unfold Vec.setRaw
      dsimp only
      rw [if_neg (by omega)]
      exact q2 p hp
    · intro i hi
      unfold Vec.setRaw
      dsimp only
      by_cases h : i = m
      · subst h; rw [if_pos rfl]
      · rw [if_neg (by omega)]
        exact q3 i (by omega)
  · rintro g' ⟨q1, q2, q3⟩
    rw [Vec.set_ok (by rw [q1]; unfold Dims.nZ; omega)]
    refine post_ok ⟨q1, ?_, ?_, ?_⟩
    · intro k a hk ha
      have := block_lt (n := mp.dims.ph) ha hk
      unfold Vec.setRaw
      dsimp only
      rw [if_neg (by unfold NlSpec.stateIx; omega), q2 _ (by unfold NlSpec.stateIx; exact this)]
      exact hg2 k a hk ha
    · intro j b hj hb
      have := block_lt (n := mp.dims.ch) hb hj
      unfold Vec.setRaw
      dsimp only
      rw [if_neg (by unfold NlSpec.inputIx; omega)]
      unfold NlSpec.inputIx
      rw [q3 _ (by omega)]
      exact hres j b hj hb
    · unfold Vec.setRaw
      dsimp only
      rw [if_pos (by unfold NlSpec.slackIx; omega)]

end NlOpt
end Mpc
