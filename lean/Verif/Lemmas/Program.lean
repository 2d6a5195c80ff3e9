import Verif.Spec.Program
import Verif.Lemmas.Learn

/-! # Lemmas: the endpoints of a program -/

namespace Knp.Prog
open Knp Knp.Bus Knp.Spec Knp.Sys Knp.Learn

variable {σ P J F : Type}

/-! ## Endpoints as a list -/

/-- The endpoints besides the backend's are `eps`. -/
def Eps (w : World F) (eps : List (Endpoint F)) : Prop := ∀ i, w.endpoint (i + 1) = eps[i]?

theorem eps_on {w : World F} {A B : List (Endpoint F)} {x : Endpoint F} (h : Eps w (A ++ x :: B)) (f : Endpoint F → Endpoint F) :
    Eps (w.onEndpoint (A.length + 1) f) (A ++ f x :: B) := by
  intro i
  rw [endpoint_onEndpoint, h i]
  by_cases hi : i = A.length
  · subst hi
    simp
  · have : ¬ i + 1 = A.length + 1 := by omega
    rw [if_neg this, Option.map_id]
    rcases Nat.lt_or_ge i A.length with h1 | h1
    · rw [List.getElem?_append_left h1, List.getElem?_append_left h1]; rfl
    · obtain ⟨k, hk⟩ : ∃ k, i - A.length = k + 1 := ⟨i - A.length - 1, by omega⟩
      rw [List.getElem?_append_right h1, List.getElem?_append_right h1, hk]
      rfl

/-- An endpoint with one subscription. -/
def listening (d : MsgKind × UID × List UID) (rcv out : List (Message F)) : Endpoint F :=
  { subs := [Subscr.create d.1 d.2.1 d.2.2], senders := setInsertAll [] d.2.2, toSend := out, recv := rcv }

/-- An endpoint without subscriptions. -/
def talking (out : List (Message F)) : Endpoint F := { subs := [], senders := [], toSend := out, recv := [] }

theorem create_eq (k : MsgKind) (r : UID) (xs : List UID) : (Subscr.create k r xs : Subscr F) = ⟨k, r, setInsertAll [] xs, []⟩ := rfl

theorem subscribe_fresh (d : MsgKind × UID × List UID) :
    (Endpoint.fresh : Endpoint F).subscribe d.1 d.2.1 d.2.2 = listening d [] [] := rfl

/-- What a subscription gets of the messages on the bus. -/
def wants (d : MsgKind × UID × List UID) (x : Message F) : Bool := (x.kind == d.1) && decide (x.sender ∈ d.2.2)

/-- What is in an endpoint after `q` (in routing order) has been routed. -/
def full (q : List (Message F)) (d : MsgKind × UID × List UID) : Endpoint F :=
  listening d (q.filter (fun x => (setInsertAll [] d.2.2).contains x.sender)) []

theorem endpoint_at {w : World F} {A B : List (Endpoint F)} {x : Endpoint F} (h : Eps w (A ++ x :: B)) :
    w.endpoint (A.length + 1) = some x := by
  rw [h]; simp

theorem run_two (w : World F) (a b : Op F) : w.run [a, b] = (w.exec a).exec b := rfl

theorem collect_spec {w : World F} {A B : List (Endpoint F)} {q : List (Message F)} {d : MsgKind × UID × List UID}
    (h : Eps w (A ++ full q d :: B)) : ∃ w', collect w (A.length + 1) d.1 d.2.1 = (w', q.reverse.filter (wants d)) ∧
      Eps w' (A ++ listening d [] [] :: B) ∧ w' = w.run [.receiveAll (A.length + 1), .unload (A.length + 1) d.1 d.2.1] := by
  have h1 := eps_on h (fun ep => ep.receiveAll.1)
  have he := endpoint_at h1
  have h2 := eps_on h1 (fun ep => (ep.unload d.1 d.2.1).1)
  refine ⟨_, ?_, ?_, rfl⟩
  · unfold collect
    simp only
    have : (w.exec (.receiveAll (A.length + 1))).endpoint (A.length + 1) = some ((full q d).receiveAll.1) := he
    rw [this]
    simp only [run_two]
    congr 1
    rw [unload_snd, receiveAll_eq]
    unfold storedE full listening Endpoint.findSub
    simp only [List.map_cons, List.map_nil, create_eq, absorb, List.nil_append, Subscr.hasKey, List.find?_cons, beq_self_eq_true, Bool.and_self, Option.map_some,
      Option.getD_some]
    rw [← List.filter_reverse, List.filter_filter]
    apply List.filter_congr
    intro x _
    unfold accepts wants Subscr.hasSender
    simp only
    have hk : (d.1 == x.kind) = (x.kind == d.1) := by cases d.1 <;> cases x.kind <;> rfl
    rw [hk]
    have hm := mem_setInsertAll [] d.2.2 x.sender
    simp only [List.not_mem_nil, false_or] at hm
    by_cases hx : x.sender ∈ d.2.2 <;> simp [hm, hx]
  · have hx : (((full q d).receiveAll.1).unload d.1 d.2.1).1 = listening d [] [] := by
      rw [receiveAll_eq]
      unfold Endpoint.unload Endpoint.findSub full listening
      simp only [List.map_cons, List.map_nil, create_eq, absorb, Subscr.hasKey, List.find?_cons, beq_self_eq_true, Bool.and_self,
        Endpoint.modifySub, if_true]
    rw [hx] at h2
    exact h2

theorem post_spec {w : World F} {A B : List (Endpoint F)} {x : Endpoint F} (h : Eps w (A ++ x :: B)) (u : UID) (t : Nat)
    (g : List Nat) : ∃ ops, post w (A.length + 1) u t g = w.run ops ∧
      Eps (w.run ops) (A ++ { x with toSend := x.toSend ++ (message u t g).map .spike } :: B) ∧
      ∀ op ∈ ops, ∃ m, op = .send (A.length + 1) m := by
  unfold post message
  by_cases hg : g = []
  · refine ⟨[], by simp [hg, World.run], ?_, by simp⟩
    simpa [hg, World.run] using h
  · have : g.isEmpty = false := by cases g with | nil => exact absurd rfl hg | cons a l => rfl
    refine ⟨[.send (A.length + 1) (.spike ⟨⟨u, t⟩, g⟩)], by simp [this, World.run], ?_, by simp⟩
    rw [if_neg hg]
    exact eps_on h (fun ep => ep.send _)

/-! ## The loops -/

/-- Calls on endpoints `a + 1, …, a + n`. -/
theorem run_append (w : World F) (a b : List (Op F)) : w.run (a ++ b) = (w.run a).run b := by
  unfold World.run; rw [List.foldl_append]

theorem feed_spec (c : Code σ F) (t : Nat) : ∀ (ins : List UID) (chs : List (List (Message F))) (A B : List (Endpoint F))
    (w : World F) (u : σ), chs.length = ins.length → Eps w (A ++ chs.map talking ++ B) →
    ∃ w' u' fed ops, feed c t A.length ins w u = ((w', u'), fed) ∧ fed.length = ins.length ∧ w' = w.run ops ∧
      (∀ op ∈ ops, Foreign (A.length + ins.length) op) ∧
      Eps w' (A ++ (List.zipWith (· ++ ·) chs (List.zipWith (fun u g => (message u t g).map Message.spike) ins fed)).map talking ++ B) := by
  intro ins
  induction ins with
  | nil =>
    intro chs A B w u hl h
    cases chs with
    | cons _ _ => simp at hl
    | nil => exact ⟨w, u, [], [], rfl, rfl, rfl, by simp, by simpa using h⟩
  | cons i ins ih =>
    intro chs A B w u hl h
    cases chs with
    | nil => simp at hl
    | cons ch chs =>
      rw [List.map_cons, List.append_assoc, List.cons_append] at h
      obtain ⟨ops1, p1, p2, p3⟩ := post_spec h i t (c.gen A.length u t).1
      have h2 : Eps (w.run ops1) ((A ++ [talking (ch ++ (message i t (c.gen A.length u t).1).map .spike)]) ++ chs.map talking ++ B) := by
        simpa [talking] using p2
      obtain ⟨w', u', fed, ops2, q1, q2, q3, q4, q5⟩ := ih chs _ B (w.run ops1) (c.gen A.length u t).2 (by simpa using hl) h2
      refine ⟨w', u', (c.gen A.length u t).1 :: fed, ops1 ++ ops2, ?_, by simp [q2], by rw [run_append, q3], ?_, ?_⟩
      · unfold feed
        simp only
        rw [p1]
        simp only [List.length_append, List.length_cons, List.length_nil, Nat.zero_add] at q1
        rw [q1]
      · intro op hop
        rcases List.mem_append.1 hop with ho | ho
        · obtain ⟨m, rfl⟩ := p3 op ho
          exact ⟨by omega, by simp⟩
        · have := q4 op ho
          simpa [Nat.add_assoc, Nat.add_comm 1] using this
      · simpa using q5

theorem updateOuts_spec (q : List (Message F)) : ∀ (os : List (UID × List UID)) (cs : List Io.OutputChannel)
    (A B : List (Endpoint F)) (w : World F), cs.length = os.length →
    Eps w (A ++ os.map (fun o => full q (.spike, o.1, o.2)) ++ B) →
    ∃ w' ops, updateOuts (A.length + 1) os cs w = (w', List.zipWith (fun o c => ⟨c.buffer ++ spikesIn (q.reverse.filter (wants (.spike, o.1, o.2)))⟩) os cs) ∧
      w' = w.run ops ∧ (∀ op ∈ ops, Foreign (A.length + os.length) op) ∧
      Eps w' (A ++ os.map (fun o => listening (.spike, o.1, o.2) [] []) ++ B) := by
  intro os
  induction os with
  | nil =>
    intro cs A B w hl h
    cases cs with
    | cons _ _ => simp at hl
    | nil => exact ⟨w, [], rfl, rfl, by simp, by simpa using h⟩
  | cons o os ih =>
    intro cs A B w hl h
    cases cs with
    | nil => simp at hl
    | cons c cs =>
      rw [List.map_cons, List.append_assoc, List.cons_append] at h
      obtain ⟨w1, p1, p2, p3⟩ := collect_spec h
      have h2 : Eps w1 ((A ++ [listening (.spike, o.1, o.2) [] []]) ++ os.map (fun o => full q (.spike, o.1, o.2)) ++ B) := by
        simpa using p2
      obtain ⟨w', ops2, q1, q3, q4, q5⟩ := ih cs _ B w1 (by simpa using hl) h2
      refine ⟨w', [.receiveAll (A.length + 1), .unload (A.length + 1) .spike o.1] ++ ops2, ?_, by rw [run_append, ← p3, q3], ?_, ?_⟩
      · unfold updateOuts
        simp only [p1]
        simp only [List.length_append, List.length_cons, List.length_nil, Nat.zero_add] at q1
        rw [q1]
        rfl
      · intro op hop
        rcases List.mem_append.1 hop with ho | ho
        · simp only [List.mem_cons, List.not_mem_nil, or_false] at ho
          rcases ho with rfl | rfl
          · exact ⟨by omega, by simp⟩
          · exact ⟨by omega, by simp⟩
        · have := q4 op ho
          simpa [Nat.add_assoc, Nat.add_comm 1] using this
      · simpa using q5

theorem runHandlers_spec (c : Code σ F) (t : Nat) (q : List (Message F)) : ∀ (hs : List Handler) (i : Nat)
    (A B : List (Endpoint F)) (w : World F) (u : σ),
    Eps w (A ++ hs.map (fun h => full q (.spike, h.uid, h.senders)) ++ B) →
    ∃ w' u' answers ops, runHandlers c t i (A.length + 1) hs w u = ((w', u'), List.zipWith (fun h a =>
        (spikesIn (q.reverse.filter (wants (.spike, h.uid, h.senders))), a)) hs answers) ∧ answers.length = hs.length ∧
      w' = w.run ops ∧ (∀ op ∈ ops, Foreign (A.length + hs.length) op) ∧
      Eps w' (A ++ List.zipWith (fun h a => listening (.spike, h.uid, h.senders) [] ((message h.uid t a).map .spike)) hs answers ++ B) := by
  intro hs
  induction hs with
  | nil => intro i A B w u h; exact ⟨w, u, [], [], rfl, rfl, rfl, by simp, by simpa using h⟩
  | cons x hs ih =>
    intro i A B w u h
    rw [List.map_cons, List.append_assoc, List.cons_append] at h
    obtain ⟨w1, p1, p2, p3⟩ := collect_spec h
    generalize hans : c.handle i u (spikesIn (q.reverse.filter (wants (.spike, x.uid, x.senders)))) = ans
    obtain ⟨ops1, r1, r2, r3⟩ := post_spec p2 x.uid t ans.1
    have h2 : Eps (w1.run ops1) ((A ++ [listening (.spike, x.uid, x.senders) [] ((message x.uid t ans.1).map .spike)]) ++
        hs.map (fun h => full q (.spike, h.uid, h.senders)) ++ B) := by
      simpa [listening] using r2
    obtain ⟨w', u', answers, ops2, q1, q2, q3, q4, q5⟩ := ih (i + 1) _ B (w1.run ops1) ans.2 h2
    refine ⟨w', u', ans.1 :: answers, [.receiveAll (A.length + 1), .unload (A.length + 1) .spike x.uid] ++ ops1 ++ ops2, ?_,
      by simp [q2], by rw [run_append, run_append, ← p3, q3], ?_, ?_⟩
    · unfold runHandlers
      simp only [p1, hans, r1]
      simp only [List.length_append, List.length_cons, List.length_nil, Nat.zero_add] at q1
      rw [q1]
      rfl
    · intro op hop
      rcases List.mem_append.1 hop with ho | ho
      · rcases List.mem_append.1 ho with ho | ho
        · simp only [List.mem_cons, List.not_mem_nil, or_false] at ho
          rcases ho with rfl | rfl
          · exact ⟨by omega, by simp⟩
          · exact ⟨by omega, by simp⟩
        · obtain ⟨m, rfl⟩ := r3 op ho
          exact ⟨by omega, by simp⟩
      · have := q4 op ho
        simpa [Nat.add_assoc, Nat.add_comm 1] using this
    · simpa using q5

theorem runObservers_spec (c : Code σ F) (q : List (Message F)) : ∀ (bs : List Observer) (i : Nat)
    (A B : List (Endpoint F)) (w : World F) (u : σ),
    Eps w (A ++ bs.map (fun b => full q (b.kind, b.uid, b.senders)) ++ B) →
    ∃ w' u' ops, runObservers c i (A.length + 1) bs w u = ((w', u'), bs.map (fun b =>
        q.reverse.filter (wants (b.kind, b.uid, b.senders)))) ∧
      w' = w.run ops ∧ (∀ op ∈ ops, Foreign (A.length + bs.length) op) ∧
      Eps w' (A ++ bs.map (fun b => listening (b.kind, b.uid, b.senders) [] []) ++ B) := by
  intro bs
  induction bs with
  | nil => intro i A B w u h; exact ⟨w, u, [], rfl, rfl, by simp, by simpa using h⟩
  | cons x bs ih =>
    intro i A B w u h
    rw [List.map_cons, List.append_assoc, List.cons_append] at h
    obtain ⟨w1, p1, p2, p3⟩ := collect_spec h
    have h2 : Eps w1 ((A ++ [listening (x.kind, x.uid, x.senders) [] []]) ++
        bs.map (fun b => full q (b.kind, b.uid, b.senders)) ++ B) := by
      simpa using p2
    obtain ⟨w', u', ops2, q1, q3, q4, q5⟩ := ih (i + 1) _ B w1 (c.observe i u (q.reverse.filter (wants (x.kind, x.uid, x.senders)))) h2
    refine ⟨w', u', [.receiveAll (A.length + 1), .unload (A.length + 1) x.kind x.uid] ++ ops2, ?_, by rw [run_append, ← p3, q3], ?_, ?_⟩
    · unfold runObservers
      simp only [p1]
      simp only [List.length_append, List.length_cons, List.length_nil, Nat.zero_add] at q1
      rw [q1]
      rfl
    · intro op hop
      rcases List.mem_append.1 hop with ho | ho
      · simp only [List.mem_cons, List.not_mem_nil, or_false] at ho
        rcases ho with rfl | rfl
        · exact ⟨by omega, by simp⟩
        · exact ⟨by omega, by simp⟩
      · have := q4 op ho
        simpa [Nat.add_assoc, Nat.add_comm 1] using this
    · simpa using q5

end Knp.Prog
