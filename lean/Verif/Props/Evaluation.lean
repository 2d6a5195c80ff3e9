import Verif.Spec.Evaluation
import Mathlib.Algebra.Order.Field.Basic
import Mathlib.Algebra.Order.Field.Rat
import Mathlib.Tactic.Ring
import Mathlib.Tactic.Linarith
import Mathlib.Tactic.Positivity
import Mathlib.Tactic.FieldSimp

/-!
# C72, C73, C97 - C99: evaluation of classification runs
-/

namespace Knp.Props
open Knp Knp.Data Knp.Eval Knp.Spec

/-! ## C72: the winner -/

private theorem choose_spec (vs : List Nat) (i best cls : Nat) :
    let p := choose vs i best cls
    (∀ x ∈ vs, x ≤ p.votes) ∧ best ≤ p.votes ∧
    ((p = ⟨cls, best⟩ ∧ ∀ x ∈ vs, x ≤ best) ∨
      (best < p.votes ∧ i ≤ p.cls ∧ vs[p.cls - i]? = some p.votes ∧ ∀ j, j < p.cls - i → ∀ x, vs[j]? = some x → x < p.votes)) := by
  induction vs generalizing i best cls with
  | nil =>
    exact ⟨by simp, Nat.le_refl _, Or.inl ⟨rfl, by simp⟩⟩
  | cons v vs ih =>
    by_cases h : v > best
    · have e : choose (v :: vs) i best cls = choose vs (i + 1) v i := by rw [choose, if_pos h]
      rw [e]
      obtain ⟨h1, h2, h3⟩ := ih (i + 1) v i
      refine ⟨?_, by omega, Or.inr ⟨by omega, ?_⟩⟩
      · intro x hx
        rcases List.mem_cons.1 hx with rfl | hx
        · exact h2
        · exact h1 x hx
      · rcases h3 with ⟨he, hall⟩ | ⟨g1, g2, g3, g4⟩
        · rw [he]
          refine ⟨Nat.le_refl _, by simp, ?_⟩
          intro j hj; simp at hj
        · refine ⟨by omega, ?_, ?_⟩
          · have : (choose vs (i + 1) v i).cls - i = ((choose vs (i + 1) v i).cls - (i + 1)) + 1 := by omega
            rw [this, List.getElem?_cons_succ]; exact g3
          · intro j hj x hx
            cases j with
            | zero =>
              have : v = x := by simpa using hx
              omega
            | succ j =>
              exact g4 j (by omega) x (by simpa using hx)
    · have e : choose (v :: vs) i best cls = choose vs (i + 1) best cls := by rw [choose, if_neg h]
      rw [e]
      obtain ⟨h1, h2, h3⟩ := ih (i + 1) best cls
      refine ⟨?_, h2, ?_⟩
      · intro x hx
        rcases List.mem_cons.1 hx with rfl | hx
        · omega
        · exact h1 x hx
      · rcases h3 with ⟨he, hall⟩ | ⟨g1, g2, g3, g4⟩
        · left
          refine ⟨he, ?_⟩
          intro x hx
          rcases List.mem_cons.1 hx with rfl | hx
          · omega
          · exact hall x hx
        · right
          refine ⟨g1, by omega, ?_, ?_⟩
          · have : (choose vs (i + 1) best cls).cls - i = ((choose vs (i + 1) best cls).cls - (i + 1)) + 1 := by omega
            rw [this, List.getElem?_cons_succ]; exact g3
          · intro j hj x hx
            cases j with
            | zero =>
              have : v = x := by simpa using hx
              omega
            | succ j => exact g4 j (by omega) x (by simpa using hx)

private theorem choose_winner (classes : Nat) (v : Nat → Nat) :
    IsWinner classes v (choose ((List.range classes).map v) 0 0 0) := by
  obtain ⟨h1, _, h3⟩ := choose_spec ((List.range classes).map v) 0 0 0
  generalize choose ((List.range classes).map v) 0 0 0 = p at *
  constructor
  · intro c hc
    exact h1 _ (List.mem_map.2 ⟨c, List.mem_range.2 hc, rfl⟩)
  · rcases h3 with ⟨rfl, _⟩ | ⟨g1, _, g3, g4⟩
    · exact Or.inl ⟨rfl, rfl⟩
    · right
      have hlt : p.cls < classes := by
        have := (List.getElem?_eq_some_iff.1 g3).1
        simpa using this
      refine ⟨g1, hlt, ?_, ?_⟩
      · have := g3
        simp only [Nat.sub_zero, List.getElem?_map, List.getElem?_range hlt, Option.map_some] at this
        exact Option.some.inj this
      · intro c hc
        apply g4 c (by omega)
        rw [List.getElem?_map, List.getElem?_range (by omega)]
        rfl

/-- number of votes for `c` in the messages selected by `sel` -/
private def cnt (classes : Nat) (msgs : List SpikeMessage) (sel : SpikeMessage → Bool) (c : Nat) : Nat :=
  ((msgs.filter sel).flatMap (fun m => m.neuronIndexes)).countP (fun i => i % classes == c)

private theorem cnt_add (classes : Nat) (msgs : List SpikeMessage) (p q r : SpikeMessage → Bool) (c : Nat)
    (h : ∀ m, (r m = true ↔ p m = true ∨ q m = true) ∧ ¬ (p m = true ∧ q m = true)) :
    cnt classes msgs p c + cnt classes msgs q c = cnt classes msgs r c := by
  unfold cnt
  induction msgs with
  | nil => rfl
  | cons m ms ih =>
    rw [List.filter_cons, List.filter_cons, List.filter_cons]
    have hm := h m
    by_cases hp : p m = true
    · by_cases hq : q m = true
      · exact absurd ⟨hp, hq⟩ hm.2
      · rw [if_pos hp, if_neg hq, if_pos (hm.1.2 (Or.inl hp))]
        simp only [List.flatMap_cons, List.countP_append]
        omega
    · by_cases hq : q m = true
      · rw [if_neg hp, if_pos hq, if_pos (hm.1.2 (Or.inr hq))]
        simp only [List.flatMap_cons, List.countP_append]
        omega
      · rw [if_neg hp, if_neg hq, if_neg (fun hr => by rcases hm.1.1 hr with h | h <;> contradiction)]
        exact ih

private theorem cnt_congr (classes : Nat) (msgs : List SpikeMessage) (p q : SpikeMessage → Bool) (c : Nat)
    (h : ∀ m, p m = q m) : cnt classes msgs p c = cnt classes msgs q c := by
  have : p = q := funext h
  rw [this]

private theorem cnt_none (classes : Nat) (msgs : List SpikeMessage) (p : SpikeMessage → Bool) (c : Nat)
    (h : ∀ m, p m = false) : cnt classes msgs p c = 0 := by
  unfold cnt
  have : msgs.filter p = [] := by
    rw [List.filter_eq_nil_iff]; intro m _; simp [h m]
  rw [this]; rfl

private theorem modify_range (classes k : Nat) (g : Nat → Nat) :
    ((List.range classes).map g).modify k (· + 1) = (List.range classes).map (fun c => g c + if k == c then 1 else 0) := by
  apply List.ext_getElem?
  intro c
  rw [List.getElem?_modify]
  by_cases hc : c < classes
  · simp only [List.getElem?_map, List.getElem?_range hc, Option.map_some]
    by_cases h : k = c
    · subst h; simp
    · simp [h]
  · have : (List.range classes)[c]? = none := by
      rw [List.getElem?_eq_none_iff]; simp; omega
    simp [List.getElem?_map, this]

private theorem addVotes_spec (classes : Nat) (hc : 1 ≤ classes) (spikes : List Nat) (g : Nat → Nat) :
    addVotes classes ((List.range classes).map g) spikes =
      .ok ((List.range classes).map (fun c => g c + spikes.countP (fun i => i % classes == c))) := by
  induction spikes generalizing g with
  | nil => simp [addVotes]
  | cons i is ih =>
    rw [addVotes, if_neg (by omega), modify_range classes _ g, ih]
    congr 1
    apply List.map_congr_left
    intro c _
    rw [List.countP_cons]
    by_cases h : (i % classes == c) = true
    · simp only [h, if_true]; omega
    · simp only [h, Bool.false_eq_true, if_false]; omega

private theorem sorted_take (msgs : List SpikeMessage) (s : Nat)
    (hs : msgs.Pairwise (fun a b => a.header.sendTime ≤ b.header.sendTime)) (hge : ∀ m ∈ msgs, s ≤ m.header.sendTime) :
    msgs.takeWhile (fun m => m.header.sendTime == s) = msgs.filter (fun m => m.header.sendTime == s) ∧
    msgs.dropWhile (fun m => m.header.sendTime == s) = msgs.filter (fun m => decide (s + 1 ≤ m.header.sendTime)) := by
  induction msgs with
  | nil => exact ⟨rfl, rfl⟩
  | cons m ms ih =>
    rw [List.pairwise_cons] at hs
    have ih' := ih hs.2 (fun x hx => hge x (by simp [hx]))
    rw [List.takeWhile_cons, List.dropWhile_cons, List.filter_cons, List.filter_cons]
    by_cases h : (m.header.sendTime == s) = true
    · have h' : m.header.sendTime = s := by simpa using h
      rw [if_pos h, if_pos h, if_pos h, if_neg (by simp; omega), ih'.1, ih'.2]
      exact ⟨rfl, rfl⟩
    · have h' : m.header.sendTime ≠ s := by simpa using h
      have h2 := hge m (by simp)
      rw [if_neg h, if_neg h, if_neg h, if_pos (by simp; omega)]
      have hall : ∀ x ∈ ms, s + 1 ≤ x.header.sendTime := fun x hx => by have := hs.1 x hx; omega
      constructor
      · symm
        rw [List.filter_eq_nil_iff]
        intro x hx
        have := hall x hx
        simp; omega
      · congr 1
        symm
        rw [List.filter_eq_self]
        intro x hx
        simpa using hall x hx

/-- the votes gathered for the current frame before step `s` -/
private def partVotes (classes spf : Nat) (msgs : List SpikeMessage) (s c : Nat) : Nat :=
  cnt classes msgs (fun m => decide (m.header.sendTime / spf = s / spf ∧ m.header.sendTime < s)) c

private theorem filter_step (msgs : List SpikeMessage) (s : Nat) :
    (msgs.filter (fun m => decide (s ≤ m.header.sendTime))).filter (fun m => m.header.sendTime == s) =
      msgs.filter (fun m => m.header.sendTime == s) := by
  rw [List.filter_filter]
  apply List.filter_congr
  intro m _
  by_cases h : m.header.sendTime = s
  · simp [h]
  · simp [h]

private theorem filter_next (msgs : List SpikeMessage) (s : Nat) :
    (msgs.filter (fun m => decide (s ≤ m.header.sendTime))).filter (fun m => decide (s + 1 ≤ m.header.sendTime)) =
      msgs.filter (fun m => decide (s + 1 ≤ m.header.sendTime)) := by
  rw [List.filter_filter]
  apply List.filter_congr
  intro m _
  by_cases h : s + 1 ≤ m.header.sendTime
  · have : s ≤ m.header.sendTime := by omega
    simp [h, this]
  · simp [h]

private theorem div_step {spf s : Nat} (hs : 1 ≤ spf) :
    ((s + 1) % spf = 0 → (s + 1) / spf = s / spf + 1 ∧ (s / spf + 1) * spf = s + 1) ∧
    ((s + 1) % spf ≠ 0 → (s + 1) / spf = s / spf) := by
  have h0 : 0 < spf := by omega
  constructor
  · intro h
    have h1 := Nat.div_add_mod (s + 1) spf
    rw [h, Nat.add_zero] at h1
    have h2 : s / spf + 1 = (s + 1) / spf := by
      obtain ⟨q, hq⟩ : ∃ q, (s + 1) / spf = q + 1 := by
        refine ⟨(s + 1) / spf - 1, ?_⟩
        have : 0 < (s + 1) / spf := by
          rcases Nat.eq_zero_or_pos ((s + 1) / spf) with hz | hz
          · rw [hz] at h1; simp at h1
          · exact hz
        omega
      rw [hq]
      congr 1
      rw [hq] at h1
      rw [Nat.div_eq_iff h0]
      have e : spf * (q + 1) = spf * q + spf := by ring
      have e2 : q * spf = spf * q := Nat.mul_comm _ _
      constructor <;> omega
    refine ⟨h2.symm, ?_⟩
    rw [h2, Nat.mul_comm]; exact h1
  · intro h
    have h1 := Nat.div_add_mod s spf
    have hlt := Nat.mod_lt s h0
    have hne : s % spf + 1 ≠ spf := by
      intro he
      apply h
      have : s + 1 = spf * (s / spf + 1) := by
        have : spf * (s / spf + 1) = spf * (s / spf) + spf := by ring
        omega
      rw [this, Nat.mul_mod_right]
    rw [Nat.div_eq_iff h0]
    have e2 : s / spf * spf = spf * (s / spf) := Nat.mul_comm _ _
    constructor <;> omega

private theorem evalLoop_spec (classes spf : Nat) (hc : 1 ≤ classes) (hs : 1 ≤ spf) (msgs : List SpikeMessage)
    (hsort : msgs.Pairwise (fun a b => a.header.sendTime ≤ b.header.sendTime)) (n s : Nat) :
    evalLoop classes spf n s (msgs.filter (fun m => decide (s ≤ m.header.sendTime)))
      ⟨(List.range (s / spf)).map (fun f => choose ((List.range classes).map (frameVotes classes spf msgs f)) 0 0 0),
        (List.range classes).map (partVotes classes spf msgs s)⟩ =
    .ok ⟨(List.range ((s + n) / spf)).map (fun f => choose ((List.range classes).map (frameVotes classes spf msgs f)) 0 0 0),
        (List.range classes).map (partVotes classes spf msgs (s + n))⟩ := by
  induction n generalizing s with
  | zero => rfl
  | succ n ih =>
    have hst := sorted_take (msgs.filter (fun m => decide (s ≤ m.header.sendTime))) s (List.Pairwise.filter _ hsort)
      (fun m hm => by have := (List.mem_filter.1 hm).2; simpa using this)
    rw [filter_step, filter_next] at hst
    rw [evalLoop, hst.1, hst.2]
    have hadd : ∀ c, partVotes classes spf msgs s c + ((msgs.filter (fun m => m.header.sendTime == s)).flatMap
        (fun m => m.neuronIndexes)).countP (fun i => i % classes == c) =
        cnt classes msgs (fun m => decide (m.header.sendTime / spf = s / spf ∧ m.header.sendTime < s + 1)) c := by
      intro c
      apply cnt_add
      intro m
      simp only [decide_eq_true_eq, beq_iff_eq]
      constructor
      · constructor
        · rintro ⟨h1, h2⟩
          rcases Nat.lt_or_ge m.header.sendTime s with h | h
          · exact Or.inl ⟨h1, h⟩
          · exact Or.inr (by omega)
        · rintro (⟨h1, h2⟩ | h)
          · exact ⟨h1, by omega⟩
          · exact ⟨by rw [h], by omega⟩
      · rintro ⟨⟨_, h⟩, h'⟩; omega
    have hproc : processSpikes classes spf
        ⟨(List.range (s / spf)).map (fun f => choose ((List.range classes).map (frameVotes classes spf msgs f)) 0 0 0),
          (List.range classes).map (partVotes classes spf msgs s)⟩
        ((msgs.filter (fun m => m.header.sendTime == s)).flatMap (fun m => m.neuronIndexes)) s =
        .ok ⟨(List.range ((s + 1) / spf)).map (fun f => choose ((List.range classes).map (frameVotes classes spf msgs f)) 0 0 0),
          (List.range classes).map (partVotes classes spf msgs (s + 1))⟩ := by
      unfold processSpikes
      dsimp only
      rw [addVotes_spec classes hc]
      dsimp only
      rw [if_neg (by omega)]
      by_cases hz : (s + 1) % spf = 0
      · obtain ⟨d1, d2⟩ := (div_step hs).1 hz
        rw [if_pos hz, d1, List.range_succ, List.map_append]
        congr 2
        · congr 1
          rw [List.map_singleton]
          congr 2
          apply List.map_congr_left
          intro c _
          rw [hadd c]
          unfold frameVotes
          apply cnt_congr
          intro m
          by_cases he : m.header.sendTime / spf = s / spf
          · have : m.header.sendTime < s + 1 := by
              have h1 := Nat.lt_mul_of_div_lt (show m.header.sendTime / spf < s / spf + 1 by omega) (by omega : 0 < spf)
              rw [d2] at h1; exact h1
            simp [he, this]
          · simp [he]
        · rw [List.map_map]
          apply List.map_congr_left
          intro c _
          symm
          apply cnt_none
          intro m
          simp only [decide_eq_false_iff_not, not_and]
          intro h1 h2
          rw [d1] at h1
          have := Nat.div_mul_le_self m.header.sendTime spf
          rw [h1, d2] at this
          omega
      · have d1 := (div_step hs).2 hz
        rw [if_neg hz, d1]
        congr 2
        apply List.map_congr_left
        intro c _
        rw [hadd c]
        unfold partVotes
        rw [d1]
    rw [hproc]
    dsimp only
    rw [ih (s + 1)]
    have : s + 1 + n = s + (n + 1) := by omega
    rw [this]

/-- C72 / C97. If the recorded messages are ordered by time, each inference frame gets exactly one prediction: the first class
with the most votes, where all spikes sent during the steps of the frame vote, and only these. -/
theorem C97_predictions (d : Dataset) (msgs : List SpikeMessage) (hc : 1 ≤ d.classes) (hs : 1 ≤ d.stepsPerFrame)
    (hsort : msgs.Pairwise (fun a b => a.header.sendTime ≤ b.header.sendTime)) :
    ∃ ps, predictions d msgs = .ok ps ∧ ps.length = d.infN ∧
      ∀ f p, ps[f]? = some p → IsWinner d.classes (frameVotes d.classes d.stepsPerFrame msgs f) p := by
  have h := evalLoop_spec d.classes d.stepsPerFrame hc hs msgs hsort d.stepsInference 0
  have e1 : msgs.filter (fun m => decide (0 ≤ m.header.sendTime)) = msgs := by
    rw [List.filter_eq_self]; intro m _; simp
  have e2 : (List.range d.classes).map (partVotes d.classes d.stepsPerFrame msgs 0) = List.replicate d.classes 0 := by
    apply List.ext_getElem
    · simp
    · intro i h1 h2
      simp only [List.getElem_map, List.getElem_replicate, List.getElem_range]
      apply cnt_none
      intro m; simp
  have e3 : (0 + d.stepsInference) / d.stepsPerFrame = d.infN := by
    unfold Dataset.stepsInference
    rw [Nat.zero_add, Nat.mul_div_cancel _ (by omega)]
  rw [e1, e2, e3] at h
  have e4 : (List.range (0 / d.stepsPerFrame)).map
      (fun f => choose ((List.range d.classes).map (frameVotes d.classes d.stepsPerFrame msgs f)) 0 0 0) = [] := by simp
  rw [e4] at h
  refine ⟨(List.range d.infN).map (fun f => choose ((List.range d.classes).map (frameVotes d.classes d.stepsPerFrame msgs f)) 0 0 0),
    ?_, ?_, ?_⟩
  · unfold predictions
    rw [h]
  · simp
  · intro f p hp
    rw [List.getElem?_map] at hp
    obtain ⟨x, hx, rfl⟩ := Option.map_eq_some_iff.1 hp
    obtain ⟨hlt, rfl⟩ := List.getElem?_eq_some_iff.1 hx
    simp only [List.getElem_range]
    exact choose_winner _ _

/-- Three classes, two frames of two steps, for the examples. -/
private def exData : Dataset := ⟨[(0, []), (2, []), (1, [])], 1, 2, 2, 3, 0⟩
private def exMsgs : List SpikeMessage := [⟨⟨7, 0⟩, [2, 5]⟩, ⟨⟨7, 1⟩, [0]⟩, ⟨⟨7, 3⟩, [4, 0, 1]⟩]

example : exMsgs.Pairwise (fun a b => a.header.sendTime ≤ b.header.sendTime) ∧ 1 ≤ exData.classes ∧ 1 ≤ exData.stepsPerFrame ∧
    predictions exData exMsgs = .ok [⟨2, 2⟩, ⟨1, 2⟩] := by
  refine ⟨by decide, by decide, by decide, by decide⟩

/-- C97 is false without the ordering: a message that comes too early in the list stops the evaluation from taking the ones behind
it, which then do not vote. -/
theorem C97_unordered_refuted : ∃ (d : Dataset) (msgs : List SpikeMessage),
    predictions d msgs = .ok [⟨0, 0⟩] ∧ frameVotes d.classes d.stepsPerFrame msgs 0 1 = 2 :=
  ⟨⟨[(1, [])], 0, 1, 2, 2, 0⟩, [⟨⟨7, 9⟩, []⟩, ⟨⟨7, 0⟩, [1, 1]⟩], by decide, by decide⟩

/-! ## C72: the counters -/

private def isTP (c : Nat) (x : Judged) : Bool := decide (x.2 = c ∧ 0 < x.1.votes ∧ x.1.cls = c)
private def isFN (c : Nat) (x : Judged) : Bool := decide (x.2 = c ∧ x.1.votes = 0)
private def isFP (c : Nat) (x : Judged) : Bool := decide (x.2 = c ∧ 0 < x.1.votes ∧ x.1.cls ≠ c)

private theorem countLoop_spec (ps : List Prediction) (ls : List Nat) (res : List Counts) (hlen : ps.length ≤ ls.length)
    (hl : ∀ x ∈ ps.zip ls, x.2 < res.length) :
    ∃ res', countLoop ps ls res = .ok res' ∧ res'.length = res.length ∧
      ∀ (c : Nat) (r : Counts), res[c]? = some r → res'[c]? = some (Counts.mk
        (r.tp + (ps.zip ls).countP (isTP c)) (r.fn + (ps.zip ls).countP (isFN c)) (r.fp + (ps.zip ls).countP (isFP c)) r.tn) := by
  induction ps generalizing ls res with
  | nil => exact ⟨res, by simp [countLoop], rfl, fun c r h => by simpa using h⟩
  | cons p ps ih =>
    cases ls with
    | nil => simp at hlen
    | cons l ls =>
      have hlt : l < res.length := hl (p, l) (by simp)
      obtain ⟨res', h1, h2, h3⟩ := ih ls (res.modify l (bump p l)) (by simpa using hlen)
        (fun x hx => by rw [List.length_modify]; exact hl x (by simp [hx]))
      refine ⟨res', ?_, by rw [h2, List.length_modify], ?_⟩
      · rw [countLoop, if_pos hlt]; exact h1
      · intro c r hr
        have hm : (res.modify l (bump p l))[c]? = some (if l = c then bump p l r else r) := by
          rw [List.getElem?_modify, hr]; rfl
        rw [h3 c _ hm, List.zip_cons_cons, List.countP_cons, List.countP_cons, List.countP_cons]
        congr 1
        by_cases hlc : l = c
        · subst hlc
          rw [if_pos rfl]
          unfold bump isTP isFN isFP
          by_cases hv : p.votes = 0
          · rw [if_pos hv]; simp [hv]; omega
          · have hv' : 0 < p.votes := by omega
            by_cases hcl : p.cls = l
            · rw [if_neg hv, if_neg (by simpa using hcl)]; simp [hv, hv', hcl]; omega
            · rw [if_neg hv, if_pos hcl]; simp [hv, hv', hcl]; omega
        · rw [if_neg hlc]
          simp [isTP, isFN, isFP, hlc]

private theorem trueNegatives_eq (n : Nat) (c : Counts) (h : c.tp + c.fn + c.fp ≤ n) (hn : n < two64) :
    trueNegatives n c = n - (c.tp + c.fn + c.fp) := by
  unfold trueNegatives
  rw [subU64_of_le (by omega : c.tp ≤ n) hn, subU64_of_le (by omega : c.fn ≤ n - c.tp) (by omega),
    subU64_of_le (by omega : c.fp ≤ n - c.tp - c.fn) (by omega)]
  omega

private theorem count_split (c : Nat) (xs : List Judged) :
    xs.countP (isTP c) + xs.countP (isFN c) + xs.countP (isFP c) = xs.countP (fun x => x.2 == c) := by
  induction xs with
  | nil => rfl
  | cons x xs ih =>
    rw [List.countP_cons, List.countP_cons, List.countP_cons, List.countP_cons, ← ih]
    by_cases h1 : x.2 = c
    · by_cases h2 : x.1.votes = 0
      · simp [isTP, isFN, isFP, h1, h2]; omega
      · have h2' : 0 < x.1.votes := by omega
        by_cases h3 : x.1.cls = c
        · simp [isTP, isFN, isFP, h1, h2, h2', h3]; omega
        · simp [isTP, isFN, isFP, h1, h2, h2', h3]; omega
    · simp [isTP, isFN, isFP, h1]

private theorem zip_take {α β : Type} (ps : List α) (l : List β) (n : Nat) (h : ps.length ≤ n) : ps.zip (l.take n) = ps.zip l := by
  induction ps generalizing l n with
  | nil => simp
  | cons p ps ih =>
    cases l with
    | nil => simp
    | cons x l =>
      obtain ⟨k, rfl⟩ : ∃ k, n = k + 1 := ⟨n - 1, by simp at h; omega⟩
      rw [List.take_succ_cons, List.zip_cons_cons, List.zip_cons_cons, ih l k (by simpa using h)]

/-- What the code puts into the four counters of class `c`, given the judged inference frames. -/
structure CodeCounts (judged : List Judged) (c : Nat) (r : Counts) : Prop where
  tp : r.tp = judged.countP (fun x => decide (x.2 = c ∧ recognised c x = true))
  fn : r.fn = judged.countP (fun x => decide (x.2 = c ∧ x.1.votes = 0))
  fp : r.fp = judged.countP (fun x => decide (x.2 = c ∧ 0 < x.1.votes ∧ x.1.cls ≠ c))
  total : r.tp + r.fn + r.fp + r.tn = judged.length

/-- C72. For time-ordered records and a split dataset whose inference labels are classes, evaluation succeeds; every inference
frame is counted exactly once among true positive, false negative, false positive, at its own label; the four counters of
every class sum to the number of inference frames. -/
theorem C72_counts (d : Dataset) (msgs : List SpikeMessage) (part : List (Nat × List Bool)) (hc : 1 ≤ d.classes)
    (hs : 1 ≤ d.stepsPerFrame) (hsort : msgs.Pairwise (fun a b => a.header.sendTime ≤ b.header.sendTime))
    (hpart : d.inferenceData = .ok part) (hlab : ∀ f ∈ part, f.1 < d.classes) (h64 : d.infN < two64) :
    ∃ ps res, predictions d msgs = .ok ps ∧ ps.length = part.length ∧ evaluate d msgs = .ok res ∧ res.length = d.classes ∧
      ∀ c, c < d.classes → ∃ r, res[c]? = some r ∧ CodeCounts (ps.zip (part.map (fun f => f.1))) c r := by
  obtain ⟨ps, hps, hpl, _⟩ := C97_predictions d msgs hc hs hsort
  have hin : d.trainN + d.infN ≤ d.frames.length ∧ part = (d.frames.drop d.trainN).take d.infN := by
    unfold Dataset.inferenceData at hpart
    by_cases h : d.trainN + d.infN ≤ d.frames.length
    · rw [if_pos h] at hpart
      exact ⟨h, (Outcome.ok.inj hpart).symm⟩
    · rw [if_neg h] at hpart; cases hpart
  have hplen : part.length = d.infN := by
    rw [hin.2, List.length_take, List.length_drop]; omega
  have hzip : ps.zip (part.map (fun f => f.1)) = ps.zip ((d.frames.drop d.trainN).map (fun f => f.1)) := by
    rw [hin.2, List.map_take]
    exact zip_take _ _ _ (by omega)
  have hjlen : (ps.zip (part.map (fun f => f.1))).length = ps.length := by
    rw [List.length_zip, List.length_map]; omega
  have hlt : ∀ x ∈ ps.zip ((d.frames.drop d.trainN).map (fun f => f.1)),
      x.2 < (List.replicate d.classes (⟨0, 0, 0, 0⟩ : Counts)).length := by
    intro x hx
    rw [← hzip] at hx
    have hx2 := (List.of_mem_zip hx).2
    obtain ⟨f, hf, he⟩ := List.mem_map.1 hx2
    rw [List.length_replicate, ← he]
    exact hlab f hf
  obtain ⟨res, h1, h2, h3⟩ := countLoop_spec ps ((d.frames.drop d.trainN).map (fun f => f.1))
    (List.replicate d.classes ⟨0, 0, 0, 0⟩) (by rw [List.length_map, List.length_drop]; omega) hlt
  rw [← hzip] at h3
  refine ⟨ps, res.map (fun c => { c with tn := trueNegatives ps.length c }), hps, by omega, ?_, ?_, ?_⟩
  · unfold evaluate
    rw [hps]
    show countPredictions d ps = _
    unfold countPredictions
    rw [h1]
  · rw [List.length_map, h2, List.length_replicate]
  · intro c hcc
    have hr0 : (List.replicate d.classes (⟨0, 0, 0, 0⟩ : Counts))[c]? = some ⟨0, 0, 0, 0⟩ := by
      rw [List.getElem?_replicate, if_pos hcc]
    have h4 := h3 c _ hr0
    refine ⟨_, by rw [List.getElem?_map, h4]; rfl, ?_⟩
    have hsum := count_split c (ps.zip (part.map (fun f => f.1)))
    have hle := List.countP_le_length (p := fun x : Judged => x.2 == c) (l := ps.zip (part.map (fun f => f.1)))
    rw [hjlen] at hle
    constructor
    · show 0 + _ = _
      rw [Nat.zero_add]
      apply List.countP_congr
      intro x _
      simp only [isTP, recognised, decide_eq_true_eq]
    · show 0 + _ = _
      rw [Nat.zero_add]; rfl
    · show 0 + _ = _
      rw [Nat.zero_add]; rfl
    · dsimp only
      rw [trueNegatives_eq _ _ (by dsimp only; omega) (by omega)]
      dsimp only
      rw [hjlen]
      omega

example : exData.inferenceData = .ok [(2, []), (1, [])] ∧ evaluate exData exMsgs =
    .ok [⟨0, 0, 0, 2⟩, ⟨1, 0, 0, 1⟩, ⟨1, 0, 0, 1⟩] := by decide

/-- C72, limit: a label that is not a class is written outside the vector. -/
theorem C72_bad_label_ub : evaluate ⟨[(5, [])], 0, 1, 1, 2, 0⟩ [] = .ub := by decide

/-! ## C98: the documented meaning of the counters -/

/-- The documented counters (result.h:39-64): the class was predicted and present / not predicted though present / predicted
though not present / neither. -/
def docTP (judged : List Judged) (c : Nat) : Nat := judged.countP (fun x => decide (x.2 = c ∧ recognised c x = true))
def docFN (judged : List Judged) (c : Nat) : Nat := judged.countP (fun x => decide (x.2 = c ∧ recognised c x = false))
def docFP (judged : List Judged) (c : Nat) : Nat := judged.countP (fun x => decide (x.2 ≠ c ∧ recognised c x = true))

/-- C98, what holds: the true positives are the documented ones, and the documented false negatives are split over the two
fields `false_negatives_` (nothing predicted) and `false_positives_` (something else predicted). -/
theorem C98_meaning_partial (judged : List Judged) (c : Nat) (r : Counts) (h : CodeCounts judged c r) :
    r.tp = docTP judged c ∧ r.fn + r.fp = docFN judged c := by
  refine ⟨h.tp, ?_⟩
  rw [h.fn, h.fp]
  unfold docFN
  clear h
  induction judged with
  | nil => rfl
  | cons x xs ih =>
    rw [List.countP_cons, List.countP_cons, List.countP_cons, ← ih]
    by_cases h1 : x.2 = c
    · by_cases h2 : x.1.votes = 0
      · simp [recognised, h1, h2]; omega
      · have h2' : 0 < x.1.votes := by omega
        by_cases h3 : x.1.cls = c
        · simp [recognised, h1, h2, h2', h3]
        · simp [recognised, h1, h2, h2', h3]; omega
    · simp [h1]

/-- C98 is false: a frame of class 0 recognised as class 1 is a false positive of class 1 and a false negative of class 0 by
the documentation; the code counts a false positive of class 0 and nothing for class 1 but a true negative. -/
theorem C98_refuted : ∃ (d : Dataset) (msgs : List SpikeMessage),
    predictions d msgs = .ok [⟨1, 1⟩] ∧ evaluate d msgs = .ok [⟨0, 0, 1, 0⟩, ⟨0, 0, 0, 1⟩] ∧
    docFN [(⟨1, 1⟩, 0)] 0 = 1 ∧ docFP [(⟨1, 1⟩, 0)] 0 = 0 ∧ docFP [(⟨1, 1⟩, 0)] 1 = 1 :=
  ⟨⟨[(0, [])], 0, 1, 1, 2, 0⟩, [⟨⟨7, 0⟩, [1]⟩], by decide, by decide, by decide, by decide, by decide⟩

/-- C98, total votes: `get_total_votes` is the number of frames of the class, not the documented sum of all four counters. -/
theorem C98_total_votes (judged : List Judged) (c : Nat) (r : Counts) (h : CodeCounts judged c r) :
    r.totalVotes = judged.countP (fun x => x.2 == c) ∧ r.totalVotes + r.tn = judged.length := by
  constructor
  · rw [← count_split c judged]
    unfold Counts.totalVotes
    rw [h.tp, h.fn, h.fp]
    congr 2
    apply List.countP_congr
    intro x _
    simp only [isTP, recognised, decide_eq_true_eq]
  · exact h.total

example : CodeCounts [(⟨1, 1⟩, 0), (⟨0, 3⟩, 0)] 0 ⟨1, 0, 1, 0⟩ := ⟨by decide, by decide, by decide, by decide⟩

/-! ## C73 -/

section Metrics
variable {F : Type}

/-- The report has one line per class, in order. -/
theorem C73_rows (o : MetricOps F) (res : List Counts) (c : Nat) :
    (report o res).length = res.length ∧ (report o res)[c]? = res[c]?.map (row o c) := by
  unfold report
  constructor
  · simp
  · rw [List.getElem?_map, List.getElem?_zipIdx]
    cases res[c]? <;> simp

/-- C73 is false: the recall column is computed from the false positives, so it always repeats the precision column. -/
theorem C73_recall_is_precision (o : MetricOps F) (label : Nat) (c : Counts) : (row o label c).recall = (row o label c).precision := rfl

/-- C73, when it is right: if the class has as many false positives as false negatives. -/
theorem C73_recall_partial (o : MetricOps F) (label : Nat) (c : Counts) (h : c.fp = c.fn) :
    (row o label c).recall = recall o c.tp c.fn := by
  show recall o c.tp c.fp = _
  rw [h]

/-- Exact arithmetic for the metrics. -/
def exactMetrics (K : Type) [Field K] [DecidableEq K] : MetricOps K :=
  { zero := 0, two := 2, ofNat := fun n => (n : K), add := (· + ·), mul := (· * ·), div := (· / ·), isZero := fun v => decide (v = 0) }

/-- Witness: one hit and one miss; recall 1/2, reported 1. -/
theorem C73_refuted : ∃ c : Counts, (row (exactMetrics Rat) 0 c).recall = 1 ∧ recall (exactMetrics Rat) c.tp c.fn = 1 / 2 :=
  ⟨⟨1, 1, 0, 0⟩, by decide +kernel, by decide +kernel⟩

end Metrics

/-! ## C99: the metrics -/

section Bounds
variable {K : Type} [Field K] [LinearOrder K] [IsStrictOrderedRing K]

omit [IsStrictOrderedRing K] in
private theorem ratio_eq [IsStrictOrderedRing K] (a b : Nat) (h : a ≤ b) (hb : b ≠ 0) : 0 ≤ (a : K) / (b : K) ∧ (a : K) / (b : K) ≤ 1 := by
  have hb' : (0 : K) < b := by exact_mod_cast Nat.pos_of_ne_zero hb
  have ha : (0 : K) ≤ a := Nat.cast_nonneg a
  have hab : (a : K) ≤ b := by exact_mod_cast h
  exact ⟨div_nonneg ha hb'.le, (div_le_one hb').2 hab⟩

/-- C99. Precision, recall, prevalence and accuracy lie in `[0, 1]`, and when the denominator is not zero they are the
textbook ratios. -/
theorem C99_ratios (tp fn fp tn : Nat) :
    let o := exactMetrics K
    (0 ≤ precision o tp fp ∧ precision o tp fp ≤ 1) ∧ (0 ≤ recall o tp fn ∧ recall o tp fn ≤ 1) ∧
    (0 ≤ prevalence o tp fn fp tn ∧ prevalence o tp fn fp tn ≤ 1) ∧
    (0 ≤ accuracy o tp fn fp tn ∧ accuracy o tp fn fp tn ≤ 1) ∧
    precision o tp fp * ((tp : K) + fp) = tp ∧ recall o tp fn * ((tp : K) + fn) = tp ∧
    prevalence o tp fn fp tn * ((tp : K) + fn + fp + tn) = tp + fn ∧
    accuracy o tp fn fp tn * ((tp : K) + fn + fp + tn) = tp + tn := by
  have gen : ∀ a b : Nat, a ≤ b → (0 ≤ (if b = 0 then (0 : K) else (a : K) / (b : K)) ∧ (if b = 0 then (0 : K) else (a : K) / (b : K)) ≤ 1) ∧
      (if b = 0 then (0 : K) else (a : K) / (b : K)) * (b : K) = a := by
    intro a b hab
    by_cases hb : b = 0
    · rw [if_pos hb]
      obtain rfl : a = 0 := by omega
      simp
    · rw [if_neg hb]
      refine ⟨ratio_eq a b hab hb, ?_⟩
      have : (b : K) ≠ 0 := by exact_mod_cast hb
      field_simp
  intro o
  obtain ⟨p1, p2⟩ := gen tp (tp + fp) (by omega)
  obtain ⟨r1, r2⟩ := gen tp (tp + fn) (by omega)
  obtain ⟨v1, v2⟩ := gen (tp + fn) (tp + fn + fp + tn) (by omega)
  obtain ⟨a1, a2⟩ := gen (tp + tn) (tp + fn + fp + tn) (by omega)
  refine ⟨p1, r1, v1, a1, ?_, ?_, ?_, ?_⟩
  · have e : ((tp : K) + fp) = ((tp + fp : Nat) : K) := by push_cast; ring
    rw [e]; exact p2
  · have e : ((tp : K) + fn) = ((tp + fn : Nat) : K) := by push_cast; ring
    rw [e]; exact r2
  · have e : ((tp : K) + fn + fp + tn) = ((tp + fn + fp + tn : Nat) : K) := by push_cast; ring
    have e2 : ((tp : K) + fn) = ((tp + fn : Nat) : K) := by push_cast; ring
    rw [e, e2]; exact v2
  · have e : ((tp : K) + fn + fp + tn) = ((tp + fn + fp + tn : Nat) : K) := by push_cast; ring
    have e2 : ((tp : K) + tn) = ((tp + tn : Nat) : K) := by push_cast; ring
    rw [e, e2]; exact a2

/-- C99. The F-score of values in `[0, 1]` is their harmonic mean, lies between them, and is 0 if one of them is 0. -/
theorem C99_f_score (p r : K) (hp : 0 ≤ p) (hr : 0 ≤ r) :
    let f := fScore (exactMetrics K) p r
    (p = 0 ∨ r = 0 → f = 0) ∧ (0 < p → 0 < r → f * (p + r) = 2 * p * r ∧ min p r ≤ f ∧ f ≤ max p r) := by
  constructor
  · intro h
    have : p * r = 0 := by rcases h with h | h <;> simp [h]
    show fScore (exactMetrics K) p r = 0
    unfold fScore
    rw [if_pos (by simpa [exactMetrics] using h)]
    rfl
  · intro h1 h2
    have hne : p * r ≠ 0 := (mul_pos h1 h2).ne'
    have hs : 0 < p + r := by linarith
    have he : fScore (exactMetrics K) p r = 2 * p * r / (p + r) := by
      unfold fScore
      rw [if_neg (by simpa [exactMetrics] using ⟨h1.ne', h2.ne'⟩)]
      rfl
    show fScore (exactMetrics K) p r * (p + r) = _ ∧ _ ≤ fScore (exactMetrics K) p r ∧ fScore (exactMetrics K) p r ≤ _
    rw [he]
    refine ⟨by field_simp, ?_, ?_⟩
    · rw [le_div_iff₀ hs]
      rcases le_total p r with h | h
      · rw [min_eq_left h]; nlinarith
      · rw [min_eq_right h]; nlinarith
    · rw [div_le_iff₀ hs]
      rcases le_total p r with h | h
      · rw [max_eq_right h]; nlinarith
      · rw [max_eq_left h]; nlinarith

end Bounds

example : fScore (exactMetrics Rat) (1 / 2) (1 / 4) = 1 / 3 ∧ accuracy (exactMetrics Rat) 3 1 0 4 = 7 / 8 := by decide +kernel

end Knp.Props
