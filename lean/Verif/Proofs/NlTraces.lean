import Verif.Proofs.NlThrowing
import Verif.Proofs.NlDetermined

/-
What calls return, with user functions which throw, is decided by the course of the history (`NlSpec.course`).
-/
namespace Mpc
open Exec
set_option linter.unusedSectionVars false

variable {d : Dims} {K : Type} [Field K] [LinearOrder K] [IsStrictOrderedRing K]

open NlMpc NlSpec

/-- abstract state after a call, given whether it returned false -/
def NlCtl.stepT (c : NlCtl d K) (refused : Bool) : NlTCall d K → NlCtl d K
  | .call op => c.step refused op
  | .optimize x0 u0 _ (.outputThrows z) _ => c.escaped x0.get u0.get z
  | .optimize x0 u0 _ e _ => c.solved x0.get u0.get e.outcome

theorem NlCtl.stepT_course (c : NlCtl d K) (b : Bool) (op : NlTCall d K) : c.stepT b (course op) = c.stepT b op := by
  cases op with
  | call op =>
    cases op with
    | optimize x0 u0 cs oc j =>
      cases oc with
      | threw => rfl
      | answered z v k t => cases t <;> rfl
    | _ => rfl
  | optimize x0 u0 vs e j => cases e <;> rfl

/-- effect of a call that is its own course -/
def Effect (c : NlCtl d K) (o o' : NlOpt K) (out : NlOut K) : NlTCall d K → Prop
  | .call op => OutOk d op out ∧ Props.NlReport o o'
  | .optimize x0 _ _ (.outputThrows z) _ => out = .threw ∧ Escaped c x0.get z.get o o'
  | .optimize x0 u0 _ e _ => ∃ r call, out = .result r call ∧ r = o'.result ∧ Given c x0.get u0.get call ∧
      Reported c o.result x0.get r o' e.outcome

theorem stepT_ok {m m' : NlMpc d K} {c : NlCtl d K} (h : m.Agrees c) (hp : d.ph < 2 ^ 31) (hm : d.nZ ≤ 2 ^ 64)
    {op : NlTCall d K} (hf : TCallFits d op) {out : NlOut K} (hr : m.stepT op = .ok (m', out)) :
    m'.Agrees (c.stepT out.refused op) ∧ m'.dynamic = m.dynamic ∧ Effect c m.o m'.o out (course op) := by
  cases op with
  | call op =>
    simp only [NlMpc.stepT] at hr
    obtain ⟨h1, h2⟩ := step_agrees h hp hm op hf hr
    refine ⟨h1, h2, ?_⟩
    have h3 := step_out h hp hm op hf hr
    cases op with
    | optimize x0 u0 cs oc j =>
      simp only [NlMpc.step] at hr
      obtain ⟨r, call, rfl, q2, -, -, q5, q6⟩ := optimize_ok h hp hf hr
      cases oc with
      | threw => exact ⟨r, call, rfl, q2, q5, q6⟩
      | answered z v k t => cases t <;> exact ⟨r, call, rfl, q2, q5, q6⟩
    | _ => exact ⟨h3, Props.c58_persist hr rfl⟩
  | optimize x0 u0 vs e j =>
    simp only [NlMpc.stepT] at hr
    cases e with
    | outputThrows z =>
      obtain ⟨h1, h2, h3, h4⟩ := optimizeT_escaped h hp hf hr
      exact ⟨h3, h2, h1, h4⟩
    | solverThrows =>
      obtain ⟨r, call, rfl, q2, q3, q4, q5, q6⟩ := optimizeT_caught h hp (by rintro _ ⟨⟩) hf hr
      exact ⟨q4, q3, r, call, rfl, q2, q5, q6⟩
    | checkThrows z w =>
      obtain ⟨r, call, rfl, q2, q3, q4, q5, q6⟩ := optimizeT_caught h hp (by rintro _ ⟨⟩) hf hr
      exact ⟨q4, q3, r, call, rfl, q2, q5, q6⟩
    | returns z v k =>
      obtain ⟨r, call, rfl, q2, q3, q4, q5, q6⟩ := optimizeT_caught h hp (by rintro _ ⟨⟩) hf hr
      exact ⟨q4, q3, r, call, rfl, q2, q5, q6⟩

/-! ### equal courses -/

theorem given_same {c : NlCtl d K} {x0 u0 : Nat → K} {p q : NlSolverCall K} (h : Given c x0 u0 p) (h' : Given c x0 u0 q) :
    SameTask p q := by
  refine ⟨⟨by rw [h.guess.size, h'.guess.size], fun i hi => ?_⟩, ⟨by rw [h.lbs, h'.lbs], fun i _ => by rw [h.lb, h'.lb]⟩,
    ⟨by rw [h.ubs, h'.ubs], fun i _ => by rw [h.ub, h'.ub]⟩, by rw [h.lim, h'.lim], by rw [h.obj, h'.obj],
    by rw [h.groups, h'.groups]⟩
  rw [h.guess.size] at hi
  rcases nZ_cases d hi with ⟨k, a, hk, ha, rfl⟩ | ⟨j, b, hj, hb, rfl⟩ | rfl
  · rw [h.guess.state k a hk ha, h'.guess.state k a hk ha]
  · rw [h.guess.input j b hj hb, h'.guess.input j b hj hb]
  · rw [h.guess.slack, h'.guess.slack]

theorem mat_same {A B : Mat K} {r c : Nat} (hA : A.Is r c) (hB : B.Is r c) (h : A.viewF r c = B.viewF r c) : SameMat A B := by
  refine ⟨by rw [hA.1, hB.1], by rw [hA.2, hB.2], fun i j hi hj => ?_⟩
  rw [hA.1] at hi
  rw [hA.2] at hj
  exact congrFun (congrFun h ⟨i, hi⟩) ⟨j, hj⟩

theorem SameMat.rfl' {α : Type} (A : Mat α) : SameMat A A := ⟨rfl, rfl, fun _ _ _ _ => rfl⟩

theorem failed_same {old old' r r' : LResult K} {o o' : NlOpt K} (h : Failed d old r o) (h' : Failed d old' r' o')
    (hc : SameVec old.cmd old'.cmd) :
    SameResult r r' ∧ SameMat o.seqState o'.seqState ∧ SameMat o.seqInput o'.seqInput ∧ SameMat o.seqOutput o'.seqOutput :=
  ⟨⟨by rw [h.code, h'.code], by rw [h.feas, h'.feas], by rw [h.cost, h'.cost], by rw [h.status, h'.status],
    by rw [h.cmd, h'.cmd]; exact hc⟩, by rw [h.seqS, h'.seqS]; exact SameMat.rfl' _,
    by rw [h.seqI, h'.seqI]; exact SameMat.rfl' _, by rw [h.seqO, h'.seqO]; exact SameMat.rfl' _⟩

theorem bool_eq {a b : Bool} {P : Prop} (ha : a = true ↔ P) (hb : b = true ↔ P) : a = b := by
  cases a <;> cases b <;> simp_all

theorem reported_same {c : NlCtl d K} {x : Nat → K} {old old' r r' : LResult K} {o o' : NlOpt K} {oc : NlOutcome K}
    (h : Reported c old x r o oc) (h' : Reported c old' x r' o' oc) (hc : SameVec old.cmd old'.cmd) :
    SameResult r r' ∧ SameMat o.seqState o'.seqState ∧ SameMat o.seqInput o'.seqInput ∧ SameMat o.seqOutput o'.seqOutput := by
  cases oc with
  | threw => exact failed_same h h' hc
  | answered z v k t =>
    cases t with
    | true => exact failed_same h h' hc
    | false =>
      have h : Answered _ _ _ _ _ _ _ := h
      have h' : Answered _ _ _ _ _ _ _ := h'
      refine ⟨⟨by rw [h.code, h'.code], bool_eq h.feas h'.feas, by rw [h.cost, h'.cost], by rw [h.status, h'.status],
        by rw [h.cmdSize, h'.cmdSize], fun i hi => ?_⟩, mat_same h.sS h'.sS (h.seqS.trans h'.seqS.symm),
        mat_same h.sI h'.sI (h.seqI.trans h'.seqI.symm), mat_same h.sO h'.sO (h.seqO.trans h'.seqO.symm)⟩
      rw [h.cmdSize] at hi
      rw [h.cmd i hi, h'.cmd i hi]

theorem outOk_same {op : NlCall d K} {o o' : NlOut K} (hn : Props.isOptimize op = false) (h : OutOk d op o) (h' : OutOk d op o') :
    o = o' := by
  have slice : ∀ {n : Nat} {s : HorizonSlice}, SliceOut n s o → SliceOut n s o' → o = o' := by
    rintro n s ⟨b, rfl, h1⟩ ⟨b', rfl, h2⟩
    split_ifs at h1 h2
    · rw [h1, h2]
    · rw [h1] at h2; cases h2; rfl
  cases op with
  | optimize => cases hn
  | setStateBoundsSlice => exact slice h h'
  | setInputBoundsSlice => exact slice h h'
  | _ => exact Eq.trans h h'.symm

/-- calls that are their own course -/
def Plain : NlTCall d K → Prop
  | .call op => Props.isOptimize op = false
  | .optimize _ _ _ _ _ => True

theorem course_plain (op : NlTCall d K) : Plain (course op) := by
  cases op with
  | call op =>
    cases op with
    | optimize x0 u0 cs oc j =>
      cases oc with
      | threw => trivial
      | answered z v k t => cases t <;> trivial
    | _ => rfl
  | optimize x0 u0 vs e j => cases e <;> trivial

theorem SameOut.refl : ∀ o : NlOut K, SameOut o o
  | .bool _ => rfl
  | .unit => trivial
  | .threw => trivial
  | .result _ _ => ⟨⟨rfl, rfl, rfl, rfl, rfl, fun _ _ => rfl⟩, ⟨rfl, fun _ _ => rfl⟩, ⟨rfl, fun _ _ => rfl⟩, ⟨rfl, fun _ _ => rfl⟩,
      rfl, rfl, rfl⟩

theorem effect_same {c : NlCtl d K} {o o' p p' : NlOpt K} {out out' : NlOut K} {op : NlTCall d K} (hn : Plain op)
    (h : Effect c o o' out op) (h' : Effect c p p' out' op) (hs : SameReport o p) : SameOut out out' ∧ SameReport o' p' := by
  cases op with
  | call op =>
    obtain ⟨h1, h2⟩ := h
    obtain ⟨h1', h2'⟩ := h'
    rw [outOk_same hn h1 h1']
    refine ⟨SameOut.refl _, ?_⟩
    obtain ⟨e1, e2, e3, e4⟩ := h2
    obtain ⟨f1, f2, f3, f4⟩ := h2'
    exact ⟨by rw [e1, f1]; exact hs.result, by rw [e2, f2]; exact hs.states, by rw [e3, f3]; exact hs.inputs,
      by rw [e4, f4]; exact hs.outputs⟩
  | optimize x0 u0 vs e j =>
    have caught : ∀ oc : NlOutcome K,
        (∃ r call, out = .result r call ∧ r = o'.result ∧ Given c x0.get u0.get call ∧ Reported c o.result x0.get r o' oc) →
        (∃ r call, out' = .result r call ∧ r = p'.result ∧ Given c x0.get u0.get call ∧ Reported c p.result x0.get r p' oc) →
        SameOut out out' ∧ SameReport o' p' := by
      rintro oc ⟨r, call, rfl, e1, e2, e3⟩ ⟨r', call', rfl, f1, f2, f3⟩
      obtain ⟨g1, g2, g3, g4⟩ := reported_same e3 f3 hs.result.cmd
      exact ⟨⟨g1, given_same e2 f2⟩, ⟨by rw [← e1, ← f1]; exact g1, g2, g3, g4⟩⟩
    cases e with
    | outputThrows z =>
      obtain ⟨rfl, h⟩ := h
      obtain ⟨rfl, h'⟩ := h'
      exact ⟨trivial, ⟨by rw [h.result, h'.result]; exact hs.result, mat_same h.sS h'.sS (h.seqS.trans h'.seqS.symm),
        mat_same h.sI h'.sI (h.seqI.trans h'.seqI.symm), by rw [h.outputs, h'.outputs]; exact hs.outputs⟩⟩
    | solverThrows => exact caught _ h h'
    | checkThrows z w => exact caught _ h h'
    | returns z v k => exact caught _ h h'

theorem refused_same : ∀ {o o' : NlOut K}, SameOut o o' → o.refused = o'.refused
  | .bool a, .bool b, h => by
    have h : a = b := h
    rw [h]
  | .unit, .unit, _ => rfl
  | .threw, .threw, _ => rfl
  | .result _ _, .result _ _, _ => rfl

/-! ### histories -/

theorem NlMpc.runT_snoc {junk : Nat → K} {dyn : Bool} {ops : List (NlTCall d K)} {op : NlTCall d K} :
    runT d junk dyn (ops ++ [op]) = (do
      let q ← runT d junk dyn ops
      let r ← q.1.stepT op
      return (r.1, q.2 ++ [r.2])) := by
  unfold runT
  rw [List.foldl_append]
  rfl

/-- abstract state after a history -/
def NlCtl.afterT (d : Dims) (ops : List (NlTCall d K)) (outs : List (NlOut K)) : NlCtl d K :=
  (ops.zip outs).foldl (fun c q => c.stepT q.2.refused q.1) (NlCtl.fresh d)

theorem NlCtl.afterT_snoc {ops : List (NlTCall d K)} {outs : List (NlOut K)} (h : outs.length = ops.length) (op : NlTCall d K)
    (o : NlOut K) : NlCtl.afterT d (ops ++ [op]) (outs ++ [o]) = (NlCtl.afterT d ops outs).stepT o.refused op := by
  unfold NlCtl.afterT
  rw [List.zip_append h.symm, List.foldl_append]
  rfl

theorem NlMpc.runT_agrees (hch : 0 < d.ch) (hle : d.ch ≤ d.ph) (hp : d.ph < 2 ^ 31) (hm : d.nZ ≤ 2 ^ 64)
    {junk : Nat → K} {dyn : Bool} {ops : List (NlTCall d K)} (hf : ∀ op ∈ ops, TCallFits d op) {m : NlMpc d K} {outs : List (NlOut K)}
    (hr : runT d junk dyn ops = .ok (m, outs)) :
    m.Agrees (NlCtl.afterT d ops outs) ∧ m.dynamic = dyn ∧ outs.length = ops.length := by
  induction ops using List.reverseRecOn generalizing m outs with
  | nil =>
    obtain ⟨q, hq, hr⟩ := bind_eq_ok.1 hr
    cases hr
    obtain ⟨h1, h2⟩ := (init_agrees hch hle hp junk dyn).of_eq hq
    exact ⟨h1, h2, rfl⟩
  | append_singleton ops op ih =>
    rw [runT_snoc] at hr
    obtain ⟨q, hq, hr⟩ := bind_eq_ok.1 hr
    obtain ⟨r, hr', hr⟩ := bind_eq_ok.1 hr
    cases hr
    obtain ⟨h1, h2, h3⟩ := ih (fun o ho => hf o (by simp [ho])) hq
    obtain ⟨h4, h5, -⟩ := stepT_ok h1 hp hm (hf op (by simp)) hr'
    refine ⟨?_, h5.trans h2, by simp [h3]⟩
    rw [NlCtl.afterT_snoc h3]
    exact h4

theorem init_same {junk junk' : Nat → K} {dyn dyn' : Bool} {m m' : NlMpc d K} (h : NlMpc.init d junk dyn = .ok m)
    (h' : NlMpc.init d junk' dyn' = .ok m') : m.o = m'.o := by
  unfold NlMpc.init at h h'
  obtain ⟨s, -, h⟩ := bind_eq_ok.1 h
  obtain ⟨s', -, h'⟩ := bind_eq_ok.1 h'
  obtain ⟨o, ho, h⟩ := bind_eq_ok.1 h
  obtain ⟨o', ho', h'⟩ := bind_eq_ok.1 h'
  cases h
  cases h'
  rw [ho] at ho'
  cases ho'
  rfl

theorem SameResult.refl (r : LResult K) : SameResult r r := ⟨rfl, rfl, rfl, rfl, rfl, fun _ _ => rfl⟩

theorem SameReport.of_eq {o p : NlOpt K} (h : o = p) : SameReport o p := by
  subst h
  exact ⟨SameResult.refl _, SameMat.rfl' _, SameMat.rfl' _, SameMat.rfl' _⟩

/-- two histories of the same course -/
theorem NlMpc.runT_same (hch : 0 < d.ch) (hle : d.ch ≤ d.ph) (hp : d.ph < 2 ^ 31) (hm : d.nZ ≤ 2 ^ 64)
    {j1 j2 : Nat → K} {dyn1 dyn2 : Bool} {ops1 : List (NlTCall d K)} : ∀ {ops2 : List (NlTCall d K)}
    (_ : ∀ op ∈ ops1, TCallFits d op) (_ : ∀ op ∈ ops2, TCallFits d op) {m1 m2 : NlMpc d K} {outs1 outs2 : List (NlOut K)}
    (_ : ops1.map course = ops2.map course) (_ : runT d j1 dyn1 ops1 = .ok (m1, outs1)) (_ : runT d j2 dyn2 ops2 = .ok (m2, outs2)),
    List.Forall₂ SameOut outs1 outs2 ∧ SameReport m1.o m2.o ∧ NlCtl.afterT d ops1 outs1 = NlCtl.afterT d ops2 outs2 := by
  induction ops1 using List.reverseRecOn with
  | nil =>
    intro ops2 _ _ m1 m2 outs1 outs2 he hr1 hr2
    obtain rfl : ops2 = [] := by simpa using he.symm
    obtain ⟨q1, hq1, hr1⟩ := bind_eq_ok.1 hr1
    obtain ⟨q2, hq2, hr2⟩ := bind_eq_ok.1 hr2
    cases hr1; cases hr2
    exact ⟨.nil, SameReport.of_eq (init_same hq1 hq2), rfl⟩
  | append_singleton ops1 op1 ih =>
    intro ops2 hf1 hf2 m1 m2 outs1 outs2 he hr1 hr2
    rcases List.eq_nil_or_concat ops2 with rfl | ⟨ops2, op2, rfl⟩
    · simp at he
    rw [List.concat_eq_append] at hf2 he hr2 ⊢
    rw [List.map_append, List.map_append] at he
    obtain ⟨he1, he2⟩ := List.append_inj' he rfl
    have he2 : course op1 = course op2 := by simpa using he2
    rw [runT_snoc] at hr1 hr2
    obtain ⟨q1, hq1, hr1⟩ := bind_eq_ok.1 hr1
    obtain ⟨r1, hs1, hr1⟩ := bind_eq_ok.1 hr1
    obtain ⟨q2, hq2, hr2⟩ := bind_eq_ok.1 hr2
    obtain ⟨r2, hs2, hr2⟩ := bind_eq_ok.1 hr2
    cases hr1; cases hr2
    have f1 : ∀ op ∈ ops1, TCallFits d op := fun o ho => hf1 o (by simp [ho])
    have f2 : ∀ op ∈ ops2, TCallFits d op := fun o ho => hf2 o (by simp [ho])
    obtain ⟨a1, a2, a3⟩ := ih f1 f2 he1 hq1 hq2
    obtain ⟨b1, -, b3⟩ := runT_agrees hch hle hp hm f1 hq1
    obtain ⟨c1, -, c3⟩ := runT_agrees hch hle hp hm f2 hq2
    rw [a3] at b1
    obtain ⟨-, -, g1⟩ := stepT_ok b1 hp hm (hf1 op1 (by simp)) hs1
    obtain ⟨-, -, g2⟩ := stepT_ok c1 hp hm (hf2 op2 (by simp)) hs2
    rw [he2] at g1
    obtain ⟨k1, k2⟩ := effect_same (course_plain op2) g1 g2 a2
    refine ⟨List.rel_append a1 (.cons k1 .nil), k2, ?_⟩
    rw [NlCtl.afterT_snoc b3, NlCtl.afterT_snoc c3, a3, refused_same k1, ← NlCtl.stepT_course, he2, NlCtl.stepT_course]

end Mpc
