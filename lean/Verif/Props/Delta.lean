import Verif.Model.Delta
import Mathlib.Data.List.Nodup
import Mathlib.Data.List.Flatten
import Mathlib.Algebra.BigOperators.Group.List.Basic

/-! # C42–C46, C48: delta projections -/

namespace Knp.Props
open Knp Knp.Delta

variable {F : Type}

/-! ## Specification -/

/-- One impact that a spike causes: the step it is due, the step of the spike, the impact. -/
structure Caused (F : Type) where
  due : Nat
  cause : Nat
  impact : SynapticImpact F

/-- All impacts caused by the spikes a projection receives in step `t`: for each spike, for each synapse with
that source (in the order the projection lists them), due `delay - 1` steps later. -/
def causedBy (t : Nat) (h : StepIn F) : List (Caused F) :=
  h.msgs.flatMap fun m => m.neuronIndexes.flatMap fun n => (h.proj.find n).filterMap fun k =>
    h.proj.synapses[k]?.map fun s =>
      ⟨t + s.delay - 1, t, ⟨k, s.weight, s.outType, s.source, s.target⟩⟩

/-- All impacts caused over consecutive steps from step `t` on. -/
def causedAll : Nat → List (StepIn F) → List (Caused F)
  | _, [] => []
  | t, h :: hs => causedBy t h ++ causedAll (t + 1) hs

/-- The message that delivers a list of impacts: none if there are none. -/
def messageFor (d : Ident) : List (Caused F) → Option (SynapticImpactMessage F)
  | [] => none
  | c :: cs => some ⟨⟨d.uid, c.cause⟩, d.pre, d.post, d.forced, (c :: cs).map Caused.impact⟩

/-- Neuron numbers fit 32 bits, delays are at least 1, and no due step exceeds 64 bits. -/
def Sound (last : Nat) (p : Proj F) : Prop :=
  ∀ s ∈ p.synapses, s.source < two32 ∧ s.target < two32 ∧ 1 ≤ s.delay ∧ last + s.delay < two64

/-- `find` is what C01 says about `find_synapses`: the indices of the synapses with that source, each once. -/
def ExactFind (p : Proj F) : Prop :=
  ∀ n, (p.find n).Nodup ∧ ∀ k, k ∈ p.find n ↔ ∃ s, p.synapses[k]? = some s ∧ s.source = n

/-! ## Queue lemmas -/

private theorem qFind_push (mk : SynapticImpact F → SynapticImpactMessage F) (key d : Nat) (imp : SynapticImpact F)
    (q : Queue F) : qFind (qPush mk key imp q) d =
      if d = key then some (match qFind q key with
        | some m => { m with impacts := m.impacts ++ [imp] }
        | none => mk imp)
      else qFind q d := by
  induction q with
  | nil =>
    by_cases h : d = key
    · simp [qPush, qFind, h]
    · have : ¬ key = d := fun e => h e.symm
      simp [qPush, qFind, h, this]
  | cons e l ih =>
    obtain ⟨k, m⟩ := e
    unfold qPush
    by_cases h1 : k = key
    · rw [if_pos h1]
      subst h1
      by_cases h2 : d = k
      · subst h2; simp [qFind]
      · have : ¬ k = d := fun e => h2 e.symm
        simp [qFind, h2, this]
    · rw [if_neg h1]
      by_cases h2 : d = key
      · subst h2
        simp only [qFind, List.find?_cons, beq_false_of_ne h1] at ih ⊢
        simpa using ih
      · by_cases h3 : k = d
        · subst h3; simp [qFind, h1]
        · simp only [qFind, List.find?_cons, beq_false_of_ne h3, beq_false_of_ne h1] at ih ⊢
          simpa [h2] using ih

private theorem qFind_erase (q : Queue F) (key d : Nat) (h : d ≠ key) : qFind (qErase q key) d = qFind q d := by
  unfold qErase
  induction q with
  | nil => rfl
  | cons e l ih =>
    obtain ⟨k, m⟩ := e
    by_cases h1 : k = key
    · subst h1
      have h2 : ¬ k = d := fun e => h e.symm
      simp only [List.filter_cons, bne_self_eq_false, Bool.false_eq_true, if_false]
      rw [ih]
      simp [qFind, h2]
    · have h2 : (k != key) = true := by simpa using h1
      simp only [List.filter_cons, h2, if_true]
      by_cases h3 : k = d
      · simp [qFind, h3]
      · simp only [qFind, List.find?_cons, beq_false_of_ne h3] at ih ⊢
        exact ih

/-- Pushing a list of (key, step, impact) into the queue. -/
private def pushAll (mk : Nat → SynapticImpact F → SynapticImpactMessage F) (l : List (Caused F)) (q : Queue F) :
    Queue F := l.foldl (fun q c => qPush (mk c.cause) c.due c.impact q) q

private def msgOf (mk : Nat → SynapticImpact F → SynapticImpactMessage F) :
    List (Caused F) → Option (SynapticImpactMessage F)
  | [] => none
  | c :: cs => some { mk c.cause c.impact with impacts := (c :: cs).map Caused.impact }

private theorem pushAll_spec (mk : Nat → SynapticImpact F → SynapticImpactMessage F)
    (hmk : ∀ t i, (mk t i).impacts = [i]) (l : List (Caused F)) (q : Queue F) (d : Nat) (old : List (Caused F))
    (h : qFind q d = msgOf mk old) :
    qFind (pushAll mk l q) d = msgOf mk (old ++ l.filter (fun c => c.due == d)) := by
  induction l generalizing q old with
  | nil => simpa [pushAll] using h
  | cons c l ih =>
    show qFind (pushAll mk l (qPush (mk c.cause) c.due c.impact q)) d = _
    by_cases hd : c.due = d
    · rw [ih _ (old ++ [c]) ?_]
      · simp [hd]
      · rw [qFind_push, if_pos hd.symm, hd, h]
        cases old with
        | nil =>
          show some (mk c.cause c.impact) = some { mk c.cause c.impact with impacts := [c.impact] }
          congr 1
          have := hmk c.cause c.impact
          cases hm : mk c.cause c.impact with
          | mk a b e f g => rw [hm] at this; simp at this; rw [this]
        | cons o os => simp [msgOf]
    · rw [ih _ old ?_]
      · simp [hd]
      · rw [qFind_push, if_neg (fun e => hd e.symm), h]

/-! ## Any calculation that pushes what is caused and then sends the message of the step -/

private def stepGen (mk : Nat → SynapticImpact F → SynapticImpactMessage F) (step : Nat) (l : List (Caused F))
    (q : Queue F) : Option (SynapticImpactMessage F) × Queue F :=
  let q1 := pushAll mk l q
  match qFind q1 step with
  | some m => (some m, qErase q1 step)
  | none => (none, q1)

private def runGen (mk : Nat → SynapticImpact F → SynapticImpactMessage F) : Nat → Queue F →
    List (List (Caused F)) → List (Option (SynapticImpactMessage F)) × Queue F
  | _, q, [] => ([], q)
  | t, q, l :: ls =>
    let r := stepGen mk t l q
    let r2 := runGen mk (t + 1) r.2 ls
    (r.1 :: r2.1, r2.2)

private theorem runGen_spec (mk : Nat → SynapticImpact F → SynapticImpactMessage F)
    (hmk : ∀ t i, (mk t i).impacts = [i]) (ls : List (List (Caused F))) : ∀ (t : Nat) (q : Queue F)
    (old : List (Caused F)),
    (∀ d, t ≤ d → qFind q d = msgOf mk (old.filter (fun c => c.due == d))) →
    (∀ i, i < ls.length → (runGen mk t q ls).1[i]? =
      some (msgOf mk ((old ++ (ls.take (i + 1)).flatten).filter (fun c => c.due == t + i)))) ∧
    (∀ d, t + ls.length ≤ d → qFind (runGen mk t q ls).2 d =
      msgOf mk ((old ++ ls.flatten).filter (fun c => c.due == d))) := by
  induction ls with
  | nil => intro t q old h; exact ⟨fun i hi => by simp at hi, fun d hd => by simpa [runGen] using h d hd⟩
  | cons l ls ih =>
    intro t q old h
    have h1 : ∀ d, t ≤ d → qFind (pushAll mk l q) d = msgOf mk ((old ++ l).filter (fun c => c.due == d)) := by
      intro d hd
      rw [pushAll_spec mk hmk l q d _ (h d hd), List.filter_append]
    have hout : (stepGen mk t l q).1 = qFind (pushAll mk l q) t := by
      unfold stepGen
      simp only
      split <;> simp_all
    have hq : ∀ d, t + 1 ≤ d → qFind (stepGen mk t l q).2 d = qFind (pushAll mk l q) d := by
      intro d hd
      unfold stepGen
      simp only
      split
      · exact qFind_erase _ _ _ (by omega)
      · rfl
    obtain ⟨i1, i2⟩ := ih (t + 1) (stepGen mk t l q).2 (old ++ l) (by
      intro d hd
      rw [hq d hd, h1 d (by omega)])
    constructor
    · intro i hi
      cases i with
      | zero =>
        show some (stepGen mk t l q).1 = _
        rw [hout, h1 t (Nat.le_refl _)]
        simp
      | succ i =>
        show (runGen mk (t + 1) (stepGen mk t l q).2 ls).1[i]? = _
        rw [i1 i (by simpa using hi)]
        rw [show t + 1 + i = t + (i + 1) by omega]
        simp [List.append_assoc]
    · intro d hd
      show qFind (runGen mk (t + 1) (stepGen mk t l q).2 ls).2 d = _
      rw [i2 d (by simp at hd; omega)]
      simp [List.append_assoc]

/-! ## The single-threaded calculation in these terms -/

/-- As `causedBy`, with the machine arithmetic of the code. -/
private def causedRaw (t : Nat) (h : StepIn F) : List (Caused F) :=
  h.msgs.flatMap fun m => m.neuronIndexes.flatMap fun n => (h.proj.find n).filterMap fun k =>
    h.proj.synapses[k]?.map fun s => ⟨futureStep s.delay t, t, impactOf k s⟩

private theorem pushAll_append (mk : Nat → SynapticImpact F → SynapticImpactMessage F) (l1 l2 : List (Caused F))
    (q : Queue F) : pushAll mk (l1 ++ l2) q = pushAll mk l2 (pushAll mk l1 q) := by
  unfold pushAll; rw [List.foldl_append]

private theorem foldl_pushAll {E : Type} (mk : Nat → SynapticImpact F → SynapticImpactMessage F)
    (f : Queue F → E → Queue F) (g : E → List (Caused F)) (h : ∀ q e, f q e = pushAll mk (g e) q) (l : List E)
    (q : Queue F) : l.foldl f q = pushAll mk (l.flatMap g) q := by
  induction l generalizing q with
  | nil => rfl
  | cons e l ih => rw [List.foldl_cons, ih, h, List.flatMap_cons, pushAll_append]

private theorem pushSpike_eq (d : Ident) (p : Proj F) (step : Nat) (q : Queue F) (n : Nat) :
    pushSpike d p step q n = pushAll (mkSingle d) ((p.find n).filterMap fun k =>
      p.synapses[k]?.map fun s => ⟨futureStep s.delay step, step, impactOf k s⟩) q := by
  unfold pushSpike
  rw [foldl_pushAll (mkSingle d) _ (fun k => (p.synapses[k]?.map
    fun s => (⟨futureStep s.delay step, step, impactOf k s⟩ : Caused F)).toList)]
  · congr 1
    induction p.find n with
    | nil => rfl
    | cons k l ih =>
      rw [List.flatMap_cons, ih, List.filterMap_cons]
      cases p.synapses[k]? <;> simp
  · intro q k
    cases p.synapses[k]? <;> rfl

private theorem calcSingle_eq (d : Ident) (h : StepIn F) (step : Nat) (q : Queue F) :
    calcSingle d h.proj step q h.msgs = pushAll (mkSingle d) (causedRaw step h) q := by
  unfold calcSingle causedRaw
  refine foldl_pushAll _ _ _ ?_ _ _
  intro q m
  refine foldl_pushAll _ _ _ ?_ _ _
  intro q n
  exact pushSpike_eq d h.proj step q n

private def rawAll : Nat → List (StepIn F) → List (List (Caused F))
  | _, [] => []
  | t, h :: hs => causedRaw t h :: rawAll (t + 1) hs

private theorem runSingle_eq (d : Ident) (hs : List (StepIn F)) : ∀ (t : Nat) (q : Queue F),
    runSingle d t q hs = runGen (mkSingle d) t q (rawAll t hs) := by
  induction hs with
  | nil => intro t q; rfl
  | cons h hs ih =>
    intro t q
    unfold runSingle rawAll runGen
    have e : stepSingle d h.proj t q h.msgs = stepGen (mkSingle d) t (causedRaw t h) q := by
      unfold stepSingle stepGen
      rw [calcSingle_eq]
      rfl
    simp only [e, ih]

private theorem rawAll_length (t : Nat) (hs : List (StepIn F)) : (rawAll t hs).length = hs.length := by
  induction hs generalizing t with
  | nil => rfl
  | cons h hs ih => simp [rawAll, ih]

private theorem rawAll_take (t i : Nat) (hs : List (StepIn F)) : (rawAll t hs).take i = rawAll t (hs.take i) := by
  induction hs generalizing t i with
  | nil => simp [rawAll]
  | cons h hs ih =>
    cases i with
    | zero => rfl
    | succ i => simp [rawAll, ih]

private theorem futureStep_eq (delay t : Nat) (h1 : 1 ≤ delay) (h2 : t + delay < two64) :
    futureStep delay t = t + delay - 1 := by
  unfold futureStep
  rw [addU64_of_lt (by omega), subU64_of_le (by omega) (by omega)]
  omega

private theorem flatMap_congr' {α β : Type} (l : List α) (f g : α → List β) (h : ∀ a ∈ l, f a = g a) :
    l.flatMap f = l.flatMap g := by
  induction l with
  | nil => rfl
  | cons a l ih =>
    rw [List.flatMap_cons, List.flatMap_cons, h a (by simp), ih (fun b hb => h b (List.mem_cons_of_mem _ hb))]

private theorem causedRaw_eq (t : Nat) (h : StepIn F) (hs : Sound t h.proj) : causedRaw t h = causedBy t h := by
  unfold causedRaw causedBy
  refine flatMap_congr' _ _ _ fun m _ => flatMap_congr' _ _ _ fun n _ => ?_
  apply List.filterMap_congr
  intro k _
  cases hk : h.proj.synapses[k]? with
  | none => simp only [Option.map_none]
  | some s =>
    obtain ⟨a, b, c, e⟩ := hs s (List.mem_of_getElem? hk)
    simp only [Option.map_some]
    rw [futureStep_eq _ _ c e]
    unfold impactOf
    rw [Nat.mod_eq_of_lt a, Nat.mod_eq_of_lt b]

private theorem rawAll_flatten (hs : List (StepIn F)) : ∀ (t : Nat),
    (∀ i (h : i < hs.length), Sound (t + i) hs[i].proj) → (rawAll t hs).flatten = causedAll t hs := by
  induction hs with
  | nil => intro t _; rfl
  | cons h hs ih =>
    intro t hsd
    unfold rawAll causedAll
    rw [List.flatten_cons, causedRaw_eq t h (hsd 0 (by simp)), ih (t + 1)]
    intro i hi
    have := hsd (i + 1) (by simpa using hi)
    simp only [List.getElem_cons_succ] at this
    rw [show t + 1 + i = t + (i + 1) by omega]
    exact this

private theorem msgOf_single (d : Ident) (l : List (Caused F)) : msgOf (mkSingle d) l = messageFor d l := by
  cases l <;> rfl

/-! ## C43 -/

/-- C43: in every run from every start step – whatever spikes arrive and however weights and synapses change
between steps – the message sent in a step delivers exactly the impacts due in that step that were caused up to
then, in the order they were caused (no message if there are none); and what remains queued for later steps are
exactly the impacts due then. -/
theorem C43_no_loss_no_duplication (d : Ident) (start : Nat) (hs : List (StepIn F))
    (hsound : ∀ i (h : i < hs.length), Sound (start + i) hs[i].proj) :
    (∀ i, i < hs.length → (runSingle d start [] hs).1[i]? =
      some (messageFor d ((causedAll start (hs.take (i + 1))).filter (fun c => c.due == start + i)))) ∧
    (∀ due, start + hs.length ≤ due → qFind (runSingle d start [] hs).2 due =
      messageFor d ((causedAll start hs).filter (fun c => c.due == due))) := by
  rw [runSingle_eq]
  obtain ⟨h1, h2⟩ := runGen_spec (mkSingle d) (fun _ _ => rfl) (rawAll start hs) start [] []
    (by intro d _; rfl)
  constructor
  · intro i hi
    rw [h1 i (by rw [rawAll_length]; exact hi), msgOf_single, List.nil_append, rawAll_take, rawAll_flatten]
    intro j hj
    have hj' : j < hs.length := by
      have := List.length_take_le' (i + 1) hs
      omega
    have := hsound j hj'
    rw [List.getElem_take]
    exact this
  · intro due hd
    rw [h2 due (by rw [rawAll_length]; exact hd), msgOf_single, List.nil_append, rawAll_flatten _ _ hsound]

private def exProj : Proj Int :=
  ⟨[⟨0, 0, 5, 1, .excitatory⟩, ⟨0, 1, 7, 3, .dopamine⟩, ⟨1, 0, 9, 2, .blocking⟩],
    fun n => if n = 0 then [1, 0] else if n = 1 then [2] else []⟩

/-- Three synapses with delays 1, 3, 2; spikes at step 10 and 11. -/
example : ((runSingle ⟨77, 1, 2, true⟩ 10 []
    [⟨exProj, [⟨⟨1, 10⟩, [0, 1]⟩]⟩, ⟨exProj, [⟨⟨1, 11⟩, [0]⟩]⟩, ⟨exProj, []⟩, ⟨exProj, []⟩]).1.map
      (Option.map (fun m => (m.header.sendTime, m.impacts.map (fun i => (i.connectionIndex, i.impactValue)))))) =
    [some (10, [(0, 5)]), some (10, [(2, 9), (0, 5)]), some (10, [(1, 7)]), some (11, [(1, 7)])] := by decide

example : ∀ i, Sound (10 + i) exProj ↔ 10 + i + 3 < two64 := by
  intro i
  constructor
  · intro h
    have := (h ⟨0, 1, 7, 3, .dopamine⟩ (by simp [exProj])).2.2.2
    exact this
  · intro h s hs
    simp [exProj] at hs
    rcases hs with rfl | rfl | rfl <;> simp [two32] <;> omega

example : ExactFind exProj := by
  intro n
  constructor
  · simp only [exProj]
    split
    · decide
    · split <;> simp
  · intro k
    rcases k with _ | _ | _ | k
    · by_cases h : n = 0 <;> by_cases h1 : n = 1 <;> simp [exProj, h, h1] <;> omega
    · by_cases h : n = 0 <;> by_cases h1 : n = 1 <;> simp [exProj, h, h1] <;> omega
    · by_cases h : n = 0 <;> by_cases h1 : n = 1 <;> simp [exProj, h, h1] <;> omega
    · by_cases h : n = 0 <;> by_cases h1 : n = 1 <;> simp [exProj, h, h1]

/-! ## C42 -/

/-- How often a neuron spiked in the messages of one step. -/
def spikesOf (n : Nat) (msgs : List SpikeMessage) : Nat := (msgs.map (fun m => m.neuronIndexes.count n)).sum

/-- The impacts delivered in a step. -/
def delivered (o : Option (SynapticImpactMessage F)) : List (SynapticImpact F) :=
  match o with
  | none => []
  | some m => m.impacts

private theorem delivered_messageFor (d : Ident) (l : List (Caused F)) :
    delivered (messageFor d l) = l.map Caused.impact := by
  cases l <;> rfl

private theorem countP_find (p : Proj F) (hf : ExactFind p) (t T k n : Nat) (s : Syn F)
    (hk : p.synapses[k]? = some s) :
    ((p.find n).filterMap fun k => p.synapses[k]?.map fun s =>
      (⟨t + s.delay - 1, t, ⟨k, s.weight, s.outType, s.source, s.target⟩⟩ : Caused F)).countP
        (fun c => c.due == T && c.impact.connectionIndex == k) =
      if n = s.source ∧ t + s.delay - 1 = T then 1 else 0 := by
  obtain ⟨hn, hm⟩ := hf n
  have hgen : ∀ l : List Nat, (∀ j ∈ l, ∃ s, p.synapses[j]? = some s) →
      (l.filterMap fun k => p.synapses[k]?.map fun s =>
        (⟨t + s.delay - 1, t, ⟨k, s.weight, s.outType, s.source, s.target⟩⟩ : Caused F)).countP
          (fun c => c.due == T && c.impact.connectionIndex == k) =
        if t + s.delay - 1 = T then l.count k else 0 := by
    intro l hl
    induction l with
    | nil => simp
    | cons j l ih =>
      obtain ⟨sj, hj⟩ := hl j (by simp)
      rw [List.filterMap_cons, hj]
      simp only [Option.map_some, List.countP_cons]
      rw [ih (fun i hi => hl i (List.mem_cons_of_mem _ hi))]
      by_cases e : j = k
      · subst e
        rw [hk] at hj
        cases hj
        by_cases h2 : t + s.delay - 1 = T <;> simp [h2]
      · by_cases h2 : t + s.delay - 1 = T <;> simp [h2, e]
  rw [hgen _ (fun j hj => by obtain ⟨s, h1, _⟩ := (hm j).1 hj; exact ⟨s, h1⟩)]
  by_cases h1 : n = s.source
  · have : (p.find n).count k = 1 := List.count_eq_one_of_mem hn ((hm k).2 ⟨s, hk, h1.symm⟩)
    rw [this]
    by_cases h2 : t + s.delay - 1 = T
    · rw [if_pos h2, if_pos ⟨h1, h2⟩]
    · rw [if_neg h2, if_neg (fun h => h2 h.2)]
  · have : (p.find n).count k = 0 := by
      apply List.count_eq_zero.2
      intro h
      obtain ⟨s', h2, h3⟩ := (hm k).1 h
      rw [hk] at h2
      cases h2
      exact h1 h3.symm
    simp [h1, this]

private theorem countP_causedBy (p : Proj F) (hf : ExactFind p) (t T k : Nat) (s : Syn F)
    (hk : p.synapses[k]? = some s) (msgs : List SpikeMessage) :
    (causedBy t ⟨p, msgs⟩).countP (fun c => c.due == T && c.impact.connectionIndex == k) =
      if t + s.delay - 1 = T then spikesOf s.source msgs else 0 := by
  unfold causedBy spikesOf
  induction msgs with
  | nil => simp
  | cons m msgs ih =>
    simp only [List.flatMap_cons, List.countP_append, List.map_cons, List.sum_cons]
    simp only at ih
    rw [ih]
    have : (m.neuronIndexes.flatMap fun n => (p.find n).filterMap fun k => p.synapses[k]?.map fun s =>
        (⟨t + s.delay - 1, t, ⟨k, s.weight, s.outType, s.source, s.target⟩⟩ : Caused F)).countP
          (fun c => c.due == T && c.impact.connectionIndex == k) =
        if t + s.delay - 1 = T then m.neuronIndexes.count s.source else 0 := by
      induction m.neuronIndexes with
      | nil => simp
      | cons n l ihl =>
        rw [List.flatMap_cons, List.countP_append, ihl, countP_find p hf t T k n s hk, List.count_cons]
        by_cases h2 : t + s.delay - 1 = T
        · by_cases h1 : n = s.source <;> simp [h1, h2, Nat.add_comm]
        · simp [h2]
    rw [this]
    split <;> simp

/-- C42: with a fixed projection whose lookup is exact (C01), for every history of spike messages and every step,
a synapse with delay `d` delivers in that step exactly as many impacts as its source neuron spiked `d - 1` steps
before (none before the history began), and every delivered impact is that of a synapse of the projection,
with its weight, type, source and target. -/
theorem C42_delay_honoured (d : Ident) (start : Nat) (p : Proj F) (hf : ExactFind p)
    (hist : List (List SpikeMessage)) (hsound : Sound (start + hist.length) p) (i : Nat) (hi : i < hist.length) :
    ∃ out, (runSingle d start [] (hist.map fun m => ⟨p, m⟩)).1[i]? = some out ∧
      (∀ k s, p.synapses[k]? = some s →
        (delivered out).countP (fun im => im.connectionIndex == k) =
          if s.delay - 1 ≤ i then spikesOf s.source (hist.getD (i - (s.delay - 1)) []) else 0) ∧
      ∀ im ∈ delivered out, ∃ s, p.synapses[im.connectionIndex]? = some s ∧ im =
        ⟨im.connectionIndex, s.weight, s.outType, s.source, s.target⟩ := by
  have hs : ∀ j (h : j < (hist.map fun m => (⟨p, m⟩ : StepIn F)).length),
      Sound (start + j) ((hist.map fun m => (⟨p, m⟩ : StepIn F))[j]).proj := by
    intro j hj s hs
    rw [List.getElem_map] at hs
    obtain ⟨a, b, c, e⟩ := hsound s hs
    rw [List.length_map] at hj
    exact ⟨a, b, c, by omega⟩
  have h := (C43_no_loss_no_duplication d start _ hs).1 i (by simpa using hi)
  refine ⟨_, h, ?_, ?_⟩
  · intro k s hk
    have hdel := (hsound s (List.mem_of_getElem? hk)).2.2.1
    rw [delivered_messageFor, List.countP_map, List.countP_filter, ← List.map_take]
    have hfun : (fun a : Caused F => ((fun im => im.connectionIndex == k) ∘ Caused.impact) a &&
        a.due == start + i) = (fun c => c.due == start + i && c.impact.connectionIndex == k) := by
      funext a; simp [Bool.and_comm]
    rw [hfun]
    have gen : ∀ (l : List (List SpikeMessage)) (t T : Nat),
        (causedAll t (l.map fun m => ⟨p, m⟩)).countP (fun c => c.due == T && c.impact.connectionIndex == k) =
          if t + s.delay - 1 ≤ T then
            spikesOf s.source (l.getD (T - (t + s.delay - 1)) []) else 0 := by
      intro l
      induction l with
      | nil => intro t T; simp [causedAll, spikesOf]
      | cons m l ih =>
        intro t T
        simp only [List.map_cons, causedAll, List.countP_append]
        rw [ih, countP_causedBy p hf t T k s hk]
        by_cases h1 : t + s.delay - 1 = T
        · have h3 : ¬ t + 1 + s.delay - 1 ≤ T := by omega
          have h4 : T - (t + s.delay - 1) = 0 := by omega
          rw [if_pos h1, if_neg h3, if_pos (by omega), h4]
          simp
        · by_cases h2 : t + s.delay - 1 ≤ T
          · have h3 : t + 1 + s.delay - 1 ≤ T := by omega
            have h4 : T - (t + s.delay - 1) = T - (t + 1 + s.delay - 1) + 1 := by omega
            rw [if_neg h1, if_pos h3, if_pos h2, h4]
            simp
          · rw [if_neg h1, if_neg h2, if_neg (by omega)]
    rw [gen]
    by_cases h1 : s.delay - 1 ≤ i
    · rw [if_pos h1, if_pos (by omega), show start + i - (start + s.delay - 1) = i - (s.delay - 1) by omega]
      congr 1
      simp only [List.getD_eq_getElem?_getD]
      rw [List.getElem?_take_of_lt (by omega)]
    · rw [if_neg h1, if_neg (by omega)]
  · intro im him
    rw [delivered_messageFor, ← List.map_take] at him
    obtain ⟨c, hc, rfl⟩ := List.mem_map.1 him
    have hc := (List.mem_filter.1 hc).1
    have gen : ∀ (l : List (List SpikeMessage)) (t : Nat), c ∈ causedAll t (l.map fun m => ⟨p, m⟩) →
        ∃ s, p.synapses[c.impact.connectionIndex]? = some s ∧ c.impact =
          ⟨c.impact.connectionIndex, s.weight, s.outType, s.source, s.target⟩ := by
      intro l
      induction l with
      | nil => intro t h; simp [causedAll] at h
      | cons m l ih =>
        intro t h
        simp only [List.map_cons, causedAll, List.mem_append] at h
        rcases h with h | h
        · unfold causedBy at h
          obtain ⟨m', _, h⟩ := List.mem_flatMap.1 h
          obtain ⟨n, _, h⟩ := List.mem_flatMap.1 h
          obtain ⟨k, _, h⟩ := List.mem_filterMap.1 h
          cases hk : p.synapses[k]? with
          | none => simp only [hk, Option.map_none] at h; cases h
          | some s =>
            simp only [hk, Option.map_some, Option.some.injEq] at h
            subst h
            exact ⟨s, hk, rfl⟩
        · exact ih _ h
    exact gen _ _ hc

/-- The impacts the spikes of one step cause through synapse `k`: one for every spike of its source neuron, with the weight and
type the synapse has in that step. -/
def sentThrough (h : StepIn F) (k : Nat) : List (SynapticImpact F) :=
  match h.proj.synapses[k]? with
  | some s => List.replicate (spikesOf s.source h.msgs) ⟨k, s.weight, s.outType, s.source, s.target⟩
  | none => []

private theorem filter_causedBy (h : StepIn F) (hf : ExactFind h.proj) (t T k : Nat) (s : Syn F)
    (hk : h.proj.synapses[k]? = some s) :
    ((causedBy t h).filter (fun c => c.due == T && c.impact.connectionIndex == k)).map Caused.impact =
      if t + s.delay - 1 = T then sentThrough h k else [] := by
  obtain ⟨p, msgs⟩ := h
  have hc := countP_causedBy p hf t T k s hk msgs
  have hlen : (((causedBy t ⟨p, msgs⟩).filter (fun c => c.due == T && c.impact.connectionIndex == k)).map Caused.impact).length =
      if t + s.delay - 1 = T then spikesOf s.source msgs else 0 := by
    rw [List.length_map, ← List.countP_eq_length_filter, hc]
  have hall : ∀ b ∈ ((causedBy t ⟨p, msgs⟩).filter (fun c => c.due == T && c.impact.connectionIndex == k)).map Caused.impact,
      b = ⟨k, s.weight, s.outType, s.source, s.target⟩ := by
    intro b hb
    obtain ⟨c, hc, rfl⟩ := List.mem_map.1 hb
    obtain ⟨h1, h2⟩ := List.mem_filter.1 hc
    unfold causedBy at h1
    obtain ⟨m', _, h⟩ := List.mem_flatMap.1 h1
    obtain ⟨n, _, h⟩ := List.mem_flatMap.1 h
    obtain ⟨k', _, h⟩ := List.mem_filterMap.1 h
    cases hk' : p.synapses[k']? with
    | none => simp only [hk', Option.map_none] at h; cases h
    | some s' =>
      simp only [hk', Option.map_some, Option.some.injEq] at h
      subst h
      simp only [Bool.and_eq_true, beq_iff_eq] at h2
      obtain ⟨_, rfl⟩ := h2
      simp only at hk
      rw [hk] at hk'
      cases hk'
      rfl
  simp only at hk
  unfold sentThrough
  simp only [hk]
  by_cases h1 : t + s.delay - 1 = T
  · rw [if_pos h1] at hlen ⊢
    exact List.eq_replicate_iff.2 ⟨hlen, hall⟩
  · rw [if_neg h1] at hlen ⊢
    exact List.length_eq_zero_iff.1 hlen

/-- C42 while weights are trained: whatever weights, types and targets the synapses have in each step, if synapse `k` keeps its
delay `D` and the lookups are exact, the impacts delivered through it in a step are those of the spikes of `D - 1` steps before,
with the weight and type the synapse had then. -/
theorem C42_changing_weights (d : Ident) (start : Nat) (hs : List (StepIn F)) (hfind : ∀ h ∈ hs, ExactFind h.proj)
    (hsound : ∀ i (h : i < hs.length), Sound (start + i) hs[i].proj) (k D : Nat)
    (hk : ∀ h ∈ hs, ∃ s, h.proj.synapses[k]? = some s ∧ s.delay = D) (i : Nat) (hi : i < hs.length) :
    ∃ out, (runSingle d start [] hs).1[i]? = some out ∧ (∀ m, out = some m → m.header.senderUid = d.uid) ∧
      (delivered out).filter (fun im => im.connectionIndex == k) =
        if h : D - 1 ≤ i then sentThrough (hs[i - (D - 1)]'(by omega)) k else [] := by
  have h := (C43_no_loss_no_duplication d start _ hsound).1 i hi
  have hD : 1 ≤ D := by
    obtain ⟨s, hs1, hs2⟩ := hk hs[i] (List.getElem_mem hi)
    have := (hsound i hi s (List.mem_of_getElem? hs1)).2.2.1
    omega
  refine ⟨_, h, ?_, ?_⟩
  · intro m hm
    generalize List.filter _ _ = cl at hm
    cases cl with
    | nil => simp [messageFor] at hm
    | cons c cs =>
      simp only [messageFor, Option.some.injEq] at hm
      rw [← hm]
  · rw [delivered_messageFor, List.filter_map, List.filter_filter]
    have hfun : (fun a : Caused F => ((fun im => im.connectionIndex == k) ∘ Caused.impact) a &&
        a.due == start + i) = (fun c => c.due == start + i && c.impact.connectionIndex == k) := by
      funext a; simp [Bool.and_comm]
    rw [hfun]
    have gen : ∀ (l : List (StepIn F)) (t T : Nat), (∀ h ∈ l, ExactFind h.proj) →
        (∀ h ∈ l, ∃ s, h.proj.synapses[k]? = some s ∧ s.delay = D) →
        ((causedAll t l).filter (fun c => c.due == T && c.impact.connectionIndex == k)).map Caused.impact =
          if t + D - 1 ≤ T then ((l[T - (t + D - 1)]?).map (sentThrough · k)).getD [] else [] := by
      intro l
      induction l with
      | nil => intro t T _ _; simp [causedAll]
      | cons m l ih =>
        intro t T hf hk
        simp only [causedAll, List.filter_append, List.map_append]
        obtain ⟨s, hs1, hs2⟩ := hk m (by simp)
        rw [ih _ _ (fun h hh => hf h (by simp [hh])) (fun h hh => hk h (by simp [hh])),
          filter_causedBy m (hf m (by simp)) t T k s hs1, hs2]
        by_cases h1 : t + D - 1 = T
        · have h3 : ¬ t + 1 + D - 1 ≤ T := by omega
          have h4 : T - (t + D - 1) = 0 := by omega
          rw [if_pos h1, if_neg h3, if_pos (by omega), h4]
          simp
        · by_cases h2 : t + D - 1 ≤ T
          · have h3 : t + 1 + D - 1 ≤ T := by omega
            have h4 : T - (t + D - 1) = T - (t + 1 + D - 1) + 1 := by omega
            rw [if_neg h1, if_pos h3, if_pos h2, h4]
            simp
          · rw [if_neg h1, if_neg h2, if_neg (by omega)]
            rfl
    rw [gen _ _ _ (fun h hh => hfind h (List.mem_of_mem_take hh)) (fun h hh => hk h (List.mem_of_mem_take hh))]
    by_cases h1 : D - 1 ≤ i
    · rw [dif_pos h1, if_pos (by omega), show start + i - (start + D - 1) = i - (D - 1) by omega,
        List.getElem?_take_of_lt (by omega), List.getElem?_eq_getElem (by omega)]
      rfl
    · rw [dif_neg h1, if_neg (by omega)]

/-- C42 while weights are trained: every delivered impact belongs to a synapse of the projection, as it was in one of the steps up
to now. -/
theorem C42_only_synapses (d : Ident) (start : Nat) (hs : List (StepIn F))
    (hsound : ∀ i (h : i < hs.length), Sound (start + i) hs[i].proj) (i : Nat) (hi : i < hs.length) :
    ∃ out, (runSingle d start [] hs).1[i]? = some out ∧ ∀ im ∈ delivered out, ∃ h ∈ hs, ∃ s,
      h.proj.synapses[im.connectionIndex]? = some s ∧ im = ⟨im.connectionIndex, s.weight, s.outType, s.source, s.target⟩ := by
  refine ⟨_, (C43_no_loss_no_duplication d start _ hsound).1 i hi, ?_⟩
  intro im him
  rw [delivered_messageFor] at him
  obtain ⟨c, hc, rfl⟩ := List.mem_map.1 him
  have hc := (List.mem_filter.1 hc).1
  have gen : ∀ (l : List (StepIn F)) (t : Nat), c ∈ causedAll t l → ∃ h ∈ l, ∃ s,
      h.proj.synapses[c.impact.connectionIndex]? = some s ∧
        c.impact = ⟨c.impact.connectionIndex, s.weight, s.outType, s.source, s.target⟩ := by
    intro l
    induction l with
    | nil => intro t h; simp [causedAll] at h
    | cons a l ih =>
      intro t h
      simp only [causedAll, List.mem_append] at h
      rcases h with h | h
      · unfold causedBy at h
        obtain ⟨m', _, h⟩ := List.mem_flatMap.1 h
        obtain ⟨n, _, h⟩ := List.mem_flatMap.1 h
        obtain ⟨k, _, h⟩ := List.mem_filterMap.1 h
        cases hk : a.proj.synapses[k]? with
        | none => simp only [hk, Option.map_none] at h; cases h
        | some s =>
          simp only [hk, Option.map_some, Option.some.injEq] at h
          subst h
          exact ⟨a, by simp, s, hk, rfl⟩
      · obtain ⟨x, hx, hx'⟩ := ih _ h
        exact ⟨x, by simp [hx], hx'⟩
  obtain ⟨x, hx, hx'⟩ := gen _ _ hc
  exact ⟨x, List.mem_of_mem_take hx, hx'⟩

/-- Non-vacuity: a synapse of delay 2 whose weight is 5 when the spike arrives and 8 when the impact is delivered. -/
example : (runSingle ⟨10, 1, 2, false⟩ 0 [] [⟨⟨[⟨0, 0, (5 : Int), 2, .excitatory⟩], fun n => if n = 0 then [0] else []⟩, [⟨⟨1, 0⟩, [0, 0]⟩]⟩,
    ⟨⟨[⟨0, 0, 8, 2, .excitatory⟩], fun n => if n = 0 then [0] else []⟩, []⟩]).1.map (fun o => (delivered o).map (·.impactValue)) =
    [[], [5, 5]] := by decide +kernel

/-! ## C44 -/

/-- C44, full statement: whenever a synapse's source spikes, some step of a long enough run delivers an impact of
that synapse. -/
def C44_statement : Prop :=
  ∀ (d : Ident) (start : Nat) (p : Proj Int) (msgs : List SpikeMessage) (k : Nat) (s : Syn Int),
    ExactFind p → start + s.delay < 2 ^ 32 → p.synapses[k]? = some s → 0 < spikesOf s.source msgs →
    ∃ n : Nat, n < 2 ^ 32 ∧ ∃ out ∈ (runSingle d start [] (⟨p, msgs⟩ :: List.replicate n ⟨p, []⟩)).1,
      ∃ im ∈ delivered out, im.connectionIndex = k

/-- C44: never – over any run (of whatever other synapses and spikes) no impact of a synapse whose delay is 0 is
ever delivered. -/
theorem C44_zero_delay_never (d : Ident) (start k : Nat) (hs : List (StepIn F))
    (hz : ∀ h ∈ hs, ∀ s, h.proj.synapses[k]? = some s → s.delay = 0) (hlen : start + hs.length < two64) :
    ∀ out ∈ (runSingle d start [] hs).1, ∀ im ∈ delivered out, im.connectionIndex ≠ k := by
  rw [runSingle_eq]
  obtain ⟨h1, _⟩ := runGen_spec (mkSingle d) (fun _ _ => rfl) (rawAll start hs) start [] []
    (by intro d _; rfl)
  have hlen' : ∀ (ls : List (List (Caused F))) (t : Nat) (q : Queue F), (runGen (mkSingle d) t q ls).1.length = ls.length := by
    intro ls
    induction ls with
    | nil => intro t q; rfl
    | cons l ls ih => intro t q; simp [runGen, ih]
  intro out hout im him hk
  obtain ⟨i, hi, rfl⟩ := List.getElem_of_mem hout
  have hi' : i < (rawAll start hs).length := by rw [hlen'] at hi; exact hi
  have := h1 i hi'
  rw [List.getElem?_eq_getElem hi] at this
  rw [Option.some.inj this, msgOf_single, delivered_messageFor, List.nil_append, rawAll_take] at him
  obtain ⟨c, hc, rfl⟩ := List.mem_map.1 him
  have hdue := (List.mem_filter.1 hc).2
  have hc := (List.mem_filter.1 hc).1
  rw [rawAll_length] at hi'
  have gen : ∀ (l : List (StepIn F)) (t : Nat), (∀ h ∈ l, ∀ s, h.proj.synapses[k]? = some s → s.delay = 0) →
      c ∈ (rawAll t l).flatten → ∃ u, t ≤ u ∧ u < t + l.length ∧ c.due = futureStep 0 u := by
    intro l
    induction l with
    | nil => intro t _ h; simp [rawAll] at h
    | cons a l ih =>
      intro t hz h
      simp only [rawAll, List.flatten_cons, List.mem_append] at h
      rcases h with h | h
      · unfold causedRaw at h
        obtain ⟨m', _, h⟩ := List.mem_flatMap.1 h
        obtain ⟨n, _, h⟩ := List.mem_flatMap.1 h
        obtain ⟨j, _, h⟩ := List.mem_filterMap.1 h
        cases hj : a.proj.synapses[j]? with
        | none => simp only [hj, Option.map_none] at h; cases h
        | some s =>
          simp only [hj, Option.map_some, Option.some.injEq] at h
          subst h
          have e : j = k := hk
          subst e
          exact ⟨t, Nat.le_refl _, by simp, by rw [hz a (by simp) s hj]⟩
      · obtain ⟨u, h1, h2, h3⟩ := ih (t + 1) (fun h hh => hz h (List.mem_cons_of_mem _ hh)) h
        exact ⟨u, by omega, by simp; omega, h3⟩
  obtain ⟨u, h2, h3, h4⟩ := gen (hs.take (i + 1)) start
    (fun h hh => hz h (List.mem_of_mem_take hh)) hc
  have hl : (hs.take (i + 1)).length = i + 1 := by rw [List.length_take]; omega
  rw [hl] at h3
  have hdue' : c.due = start + i := by simpa using hdue
  rw [h4] at hdue'
  unfold futureStep at hdue'
  rw [addU64_of_lt (by omega)] at hdue'
  by_cases hu : u = 0
  · subst hu
    have : subU64 (0 + 0) 1 = two64 - 1 := by decide
    rw [this] at hdue'
    have : two64 = 18446744073709551616 := rfl
    omega
  · rw [subU64_of_le (by omega) (by omega)] at hdue'
    omega

private def zeroProj : Proj Int := ⟨[⟨0, 0, 5, 0, .excitatory⟩], fun n => if n = 0 then [0] else []⟩

/-- C44 is false of the code: the impact of a zero-delay synapse is filed under the step before (for step 0:
under 2^64-1) and is never sent. -/
theorem C44_zero_delay_refuted : ¬ C44_statement := by
  intro h
  obtain ⟨n, hn, out, h1, im, h2, h3⟩ := h ⟨77, 1, 2, true⟩ 10 zeroProj [⟨⟨1, 10⟩, [0]⟩] 0
    ⟨0, 0, 5, 0, .excitatory⟩ (by
      intro n
      constructor
      · simp only [zeroProj]; split <;> simp
      · intro k
        cases k with
        | zero => by_cases e : n = 0 <;> simp [zeroProj, e] <;> omega
        | succ k => by_cases e : n = 0 <;> simp [zeroProj, e]) (by decide) (by rfl) (by decide)
  refine C44_zero_delay_never ⟨77, 1, 2, true⟩ 10 0 _ ?_ ?_ out h1 im h2 h3
  · intro a ha s hs
    have : a.proj = zeroProj := by
      rcases List.mem_cons.1 ha with rfl | ha
      · rfl
      · rw [(List.mem_replicate.1 ha).2]
    rw [this] at hs
    simp [zeroProj] at hs
    rw [← hs]
  · simp only [List.length_cons, List.length_replicate]
    have : two64 = 2 ^ 64 := rfl
    omega

example : (runSingle ⟨77, 1, 2, true⟩ 10 [] [⟨zeroProj, [⟨⟨1, 10⟩, [0]⟩]⟩, ⟨zeroProj, []⟩]).1 = [none, none] := by
  decide

/-! ## C46 -/

private theorem partStarts_spec (size part : Nat) (hp : 1 ≤ part) (hsz : size ≤ 2 ^ 63) : ∀ (fuel i : Nat),
    size - i < fuel → (i < size → i + part < two64) → ∃ starts, partStarts size part fuel i = some starts ∧
      (starts.flatMap fun lo => List.range' lo (partEnd size part lo - lo)) = List.range' i (size - i) := by
  have h64 : two64 = 2 ^ 64 := rfl
  intro fuel
  induction fuel with
  | zero => intro i h; omega
  | succ fuel ih =>
    intro i h hi
    unfold partStarts
    by_cases hlt : i < size
    · rw [if_pos hlt]
      have hnw := hi hlt
      rw [addU64_of_lt hnw]
      obtain ⟨starts, h1, h2⟩ := ih (i + part) (by omega) (by intro h; omega)
      refine ⟨i :: starts, by rw [h1]; rfl, ?_⟩
      rw [List.flatMap_cons, h2]
      unfold partEnd
      rw [addU64_of_lt hnw]
      by_cases hle : i + part ≤ size
      · rw [Nat.min_eq_left hle]
        have e1 : i + part - i = part := by omega
        have e2 : size - i = part + (size - (i + part)) := by omega
        rw [e1, e2]
        have := List.range'_append (s := i) (m := part) (n := size - (i + part)) (step := 1)
        simpa using this
      · rw [Nat.min_eq_right (by omega)]
        have e1 : size - (i + part) = 0 := by omega
        rw [e1]; simp
    · rw [if_neg hlt]
      have : size - i = 0 := by omega
      exact ⟨[], rfl, by simp [this]⟩

/-- C46: for every size (a container has fewer than 2^63 elements) and every part size from 1 to 2^64-1 the
partition loop ends and its parts, one after the other, are the elements 0, 1, …, size-1. -/
theorem C46_partition (size part : Nat) (hp : 1 ≤ part) (hp2 : part < two64) (hsz : size ≤ 2 ^ 63) :
    ∃ starts, partStarts size part (size + 1) 0 = some starts ∧
      (starts.flatMap fun lo => List.range' lo (partEnd size part lo - lo)) = List.range size := by
  obtain ⟨starts, h1, h2⟩ := partStarts_spec size part hp hsz (size + 1) 0 (by omega) (by intro _; omega)
  exact ⟨starts, h1, by rw [h2, List.range_eq_range']; rfl⟩

example : partStarts 10 4 11 0 = some [0, 4, 8] ∧ partEnd 10 4 8 = 10 := by decide

/-- C46: with part size 0 and a non-empty container the loop never ends. -/
theorem C46_zero_part_diverges (size : Nat) (hs : 0 < size) (fuel : Nat) : partStarts size 0 fuel 0 = none := by
  induction fuel with
  | zero => rfl
  | succ fuel ih =>
    unfold partStarts
    rw [if_pos hs, show addU64 0 0 = 0 from rfl, ih]; rfl

/-! ## C45 -/

/-- In each step the critical sections of the tasks ran in some order. -/
def Scheduled (scale : F → Nat → F) (part : Nat) : Nat → List (StepIn F) →
    List (List (List (Nat × SynapticImpact F))) → Prop
  | _, [], [] => True
  | t, h :: hs, o :: os => o.Perm (tasks scale h.proj t part h.msgs) ∧ Scheduled scale part (t + 1) hs os
  | _, _, _ => False

/-- C45, full statement: both backends deliver the same impacts in every step, under every schedule. -/
def C45_statement : Prop :=
  ∀ (scale : Int → Nat → Int), (∀ w c, scale w c = w * c) → ∀ (d : Ident) (start part : Nat)
    (hs : List (StepIn Int)) (orders : List (List (List (Nat × SynapticImpact Int)))),
    1 ≤ part → (∀ h ∈ hs, ExactFind h.proj) → Scheduled scale part start hs orders →
    ∀ i : Nat, i < hs.length → ∃ a b, (runSingle d start [] hs).1[i]? = some a ∧
      (runMulti d start [] orders).1[i]? = some b ∧ (delivered a).Perm (delivered b)

/-- C45 is false: if a projection receives two spike messages in a step, the multi-threaded backend uses only
the first. -/
theorem C45_two_messages_refuted : ¬ C45_statement := by
  intro h
  obtain ⟨a, b, h1, h2, h3⟩ := h (fun w c => w * c) (fun _ _ => rfl) ⟨77, 1, 2, true⟩ 10 5
    [⟨⟨[⟨0, 0, 5, 1, .excitatory⟩], fun n => if n = 0 then [0] else []⟩, [⟨⟨1, 10⟩, []⟩, ⟨⟨3, 10⟩, [0]⟩]⟩]
    [[[]]] (by decide) (by
      intro h hh
      rw [List.mem_singleton.1 hh]
      intro n
      constructor
      · simp only; split <;> simp
      · intro k
        cases k with
        | zero => by_cases e : n = 0 <;> simp [e] <;> omega
        | succ k => by_cases e : n = 0 <;> simp [e]) ⟨by decide, trivial⟩ 0 (by decide)
  have e1 : (runSingle (F := Int) ⟨77, 1, 2, true⟩ 10 []
    [⟨⟨[⟨0, 0, 5, 1, .excitatory⟩], fun n => if n = 0 then [0] else []⟩,
      [⟨⟨1, 10⟩, []⟩, ⟨⟨3, 10⟩, [0]⟩]⟩]).1[0]? =
      some (some ⟨⟨77, 10⟩, 1, 2, true, [⟨0, 5, .excitatory, 0, 0⟩]⟩) := by decide
  have e2 : (runMulti (F := Int) ⟨77, 1, 2, true⟩ 10 [] [[[]]]).1[0]? = some none := by decide
  rw [e1] at h1
  rw [e2] at h2
  rw [← Option.some.inj h1, ← Option.some.inj h2] at h3
  have := h3.length_eq
  simp [delivered] at this

private def toCaused (t : Nat) (o : List (List (Nat × SynapticImpact F))) : List (Caused F) :=
  o.flatten.map (fun e => ⟨e.1, t, e.2⟩)

private def multiAll : Nat → List (List (List (Nat × SynapticImpact F))) → List (List (Caused F))
  | _, [] => []
  | t, o :: os => toCaused t o :: multiAll (t + 1) os

private theorem runMulti_eq (d : Ident) (os : List (List (List (Nat × SynapticImpact F)))) :
    ∀ (t : Nat) (q : Queue F), runMulti d t q os = runGen (mkMulti d) t q (multiAll t os) := by
  induction os with
  | nil => intro t q; rfl
  | cons o os ih =>
    intro t q
    unfold runMulti multiAll runGen
    have e0 : ∀ q, o.foldl (mergeContainer d t) q = pushAll (mkMulti d) (toCaused t o) q := by
      intro q
      rw [foldl_pushAll (mkMulti d) (mergeContainer d t) (fun c => c.map (fun e => ⟨e.1, t, e.2⟩))]
      · unfold toCaused
        rw [List.map_flatten, List.flatMap_def]
      · intro q c
        unfold mergeContainer pushAll
        rw [List.foldl_map]
    have e : stepMulti d t q o = stepGen (mkMulti d) t (toCaused t o) q := by
      unfold stepMulti stepGen
      rw [e0]
      rfl
    simp only [e, ih]

private theorem multiAll_length (t : Nat) (os : List (List (List (Nat × SynapticImpact F)))) :
    (multiAll t os).length = os.length := by
  induction os generalizing t with
  | nil => rfl
  | cons h hs ih => simp [multiAll, ih]

theorem countOf_convert (l : List Nat) (n : Nat) :
    countOf (convertSpikes l) n = if n ∈ l then some (l.count n) else none := by
  have gen : ∀ (l : List Nat) (acc : List (Nat × Nat)) (seen : List Nat),
      (∀ n, countOf acc n = if n ∈ seen then some (seen.count n) else none) →
      ∀ n, countOf (l.foldl convertStep acc) n =
        if n ∈ seen ++ l then some ((seen ++ l).count n) else none := by
    intro l
    induction l with
    | nil => intro acc seen h n; simpa using h n
    | cons x l ih =>
      intro acc seen h n
      rw [List.foldl_cons, show seen ++ x :: l = (seen ++ [x]) ++ l by simp]
      apply ih
      intro n
      have hx := h x
      unfold convertStep
      unfold countOf at hx h ⊢
      cases hf : acc.find? (fun e => e.1 == x) with
      | none =>
        have hns : x ∉ seen := by
          intro hc
          rw [hf, if_pos hc] at hx
          cases hx
        simp only [List.find?_append]
        by_cases e : n = x
        · subst e
          rw [hf]
          simp [List.count_eq_zero.2 hns]
        · have h2 : ¬ x = n := fun e2 => e e2.symm
          have := h n
          cases hn : acc.find? (fun e => e.1 == n) with
          | none =>
            rw [hn] at this
            by_cases hm : n ∈ seen
            · rw [if_pos hm] at this; cases this
            · simp [hm, e, h2]
          | some v =>
            rw [hn] at this
            by_cases hm : n ∈ seen
            · rw [if_pos hm] at this
              simp only [Option.map_some, Option.some.injEq] at this
              simp [hm, h2, this]
            · rw [if_neg hm] at this; cases this
      | some v =>
        have hs : x ∈ seen := by
          by_contra hc
          rw [hf, if_neg hc] at hx
          cases hx
        have hfm : (acc.map (fun e => if e.1 = x then (e.1, e.2 + 1) else e)).find? (fun e => e.1 == n) =
            (acc.find? (fun e => e.1 == n)).map (fun e => if e.1 = x then (e.1, e.2 + 1) else e) := by
          rw [List.find?_map]
          congr 1
          congr 1
          funext e
          simp only [Function.comp_apply]
          split <;> rfl
        simp only [hfm]
        have := h n
        by_cases e : n = x
        · subst e
          rw [hf] at this ⊢
          rw [if_pos hs] at this
          have hv : v.1 = n := by simpa using List.find?_some hf
          simp only [Option.map_some, Option.some.injEq] at this
          simp [hv, this]
        · have h2 : ¬ x = n := fun e2 => e e2.symm
          cases hn : acc.find? (fun e => e.1 == n) with
          | none =>
            rw [hn] at this
            by_cases hm : n ∈ seen
            · rw [if_pos hm] at this; cases this
            · simp [hm, e]
          | some w =>
            rw [hn] at this
            have hw : w.1 = n := by simpa using List.find?_some hn
            by_cases hm : n ∈ seen
            · rw [if_pos hm] at this
              simp only [Option.map_some, Option.some.injEq] at this
              simp [hm, h2, this, hw, e]
            · rw [if_neg hm] at this; cases this
  have := gen l [] [] (by intro n; rfl) n
  simpa [convertSpikes] using this

/-- The impact of synapse `k` in the multi-threaded calculation of step `t`. -/
private def multiImpact (scale : F → Nat → F) (p : Proj F) (spikes : List Nat) (t k : Nat) :
    Option (Nat × SynapticImpact F) :=
  match p.synapses[k]? with
  | none => none
  | some s => if s.source ∈ spikes then
      some (futureStep s.delay t, { impactOf k s with impactValue := scale s.weight (spikes.count s.source) })
    else none

private theorem tasks_flatten (scale : F → Nat → F) (p : Proj F) (t part : Nat) (hp : 1 ≤ part) (hp2 : part < two64)
    (hsz : p.synapses.length ≤ 2 ^ 63) (m : SpikeMessage) (ms : List SpikeMessage) :
    (tasks scale p t part (m :: ms)).flatten =
      (List.range p.synapses.length).filterMap (multiImpact scale p m.neuronIndexes t) := by
  obtain ⟨starts, h1, h2⟩ := C46_partition p.synapses.length part hp hp2 hsz
  unfold tasks
  simp only [h1]
  rw [← h2, ← List.flatMap_def]
  have : ∀ l : List Nat, (l.flatMap fun lo => partContainer scale p (convertSpikes m.neuronIndexes) t lo
      (partEnd p.synapses.length part lo)) =
      (l.flatMap fun lo => List.range' lo (partEnd p.synapses.length part lo - lo)).filterMap
        (multiImpact scale p m.neuronIndexes t) := by
    intro l
    induction l with
    | nil => rfl
    | cons lo l ih =>
      rw [List.flatMap_cons, List.flatMap_cons, ih, List.filterMap_append]
      congr 1
      unfold partContainer
      apply List.filterMap_congr
      intro k _
      unfold multiImpact
      cases p.synapses[k]? with
      | none => rfl
      | some s =>
        simp only [countOf_convert]
        split <;> rename_i h <;> split at h <;> simp_all
  exact this starts

/-- Same impacts per step up to order, each step's all caused in that step. -/
private def Rel : Nat → List (List (Caused F)) → List (List (Caused F)) → Prop
  | _, [], [] => True
  | t, a :: as, b :: bs => a.Perm b ∧ (∀ c ∈ a, c.cause = t) ∧ Rel (t + 1) as bs
  | _, _, _ => False

private theorem rel_take (as : List (List (Caused F))) : ∀ (t i : Nat) (bs : List (List (Caused F))), Rel t as bs →
    Rel t (as.take i) (bs.take i) := by
  induction as with
  | nil => intro t i bs h; cases bs with
    | nil => simpa using h
    | cons b bs => exact absurd h (by simp [Rel])
  | cons a as ih =>
    intro t i bs h
    cases bs with
    | nil => exact absurd h (by simp [Rel])
    | cons b bs =>
      cases i with
      | zero => simp [Rel]
      | succ i => exact ⟨h.1, h.2.1, ih _ _ _ h.2.2⟩

private theorem rel_spec (as : List (List (Caused F))) : ∀ (t : Nat) (bs : List (List (Caused F))), Rel t as bs →
    ∀ P : Caused F → Bool, (as.flatten.filter P).Perm (bs.flatten.filter P) ∧
      (as.flatten.filter P).head?.map Caused.cause = (bs.flatten.filter P).head?.map Caused.cause := by
  induction as with
  | nil =>
    intro t bs h P
    cases bs with
    | nil => exact ⟨List.Perm.refl _, rfl⟩
    | cons b bs => exact absurd h (by simp [Rel])
  | cons a as ih =>
    intro t bs h P
    cases bs with
    | nil => exact absurd h (by simp [Rel])
    | cons b bs =>
      obtain ⟨h1, h2, h3⟩ := h
      obtain ⟨i1, i2⟩ := ih _ _ h3 P
      simp only [List.flatten_cons, List.filter_append]
      have hp := h1.filter P
      refine ⟨hp.append i1, ?_⟩
      cases ha : a.filter P with
      | nil =>
        rw [ha] at hp
        rw [hp.symm.eq_nil]
        simpa using i2
      | cons x l =>
        cases hb : b.filter P with
        | nil => rw [ha, hb] at hp; exact absurd hp.length_eq (by simp)
        | cons y l' =>
          have hx : x.cause = t := h2 x (List.mem_of_mem_filter (by rw [ha]; simp) (p := P))
          have hy : y.cause = t := by
            apply h2 y
            apply h1.mem_iff.2
            exact List.mem_of_mem_filter (by rw [hb]; simp) (p := P)
          simp [hx, hy]

private theorem cause_raw (t : Nat) (h : StepIn F) : ∀ c ∈ causedRaw t h, c.cause = t := by
  intro c hc
  unfold causedRaw at hc
  obtain ⟨m', _, hc⟩ := List.mem_flatMap.1 hc
  obtain ⟨n, _, hc⟩ := List.mem_flatMap.1 hc
  obtain ⟨k, _, hc⟩ := List.mem_filterMap.1 hc
  cases hk : h.proj.synapses[k]? with
  | none => simp only [hk, Option.map_none] at hc; cases hc
  | some s =>
    simp only [hk, Option.map_some, Option.some.injEq] at hc
    subst hc
    rfl

/-- What C45 needs of one step: at most one message, no neuron twice in it, an exact lookup. -/
structure OneMessage (h : StepIn F) : Prop where
  exact : ExactFind h.proj
  size : h.proj.synapses.length ≤ 2 ^ 63
  one : h.msgs.length ≤ 1
  nodup : ∀ m ∈ h.msgs, m.neuronIndexes.Nodup

private theorem raw_perm (scale : F → Nat → F) (hsc : ∀ w, scale w 1 = w) (t part : Nat) (hp : 1 ≤ part)
    (hp2 : part < two64) (h : StepIn F) (ho : OneMessage h) (o : List (List (Nat × SynapticImpact F)))
    (hperm : o.Perm (tasks scale h.proj t part h.msgs)) : (causedRaw t h).Perm (toCaused t o) := by
  have hb : (toCaused t o).Perm (toCaused t (tasks scale h.proj t part h.msgs)) := hperm.flatten.map _
  refine List.Perm.trans ?_ hb.symm
  obtain ⟨p, msgs⟩ := h
  cases msgs with
  | nil => exact List.Perm.refl _
  | cons m ms =>
    have hms : ms = [] := by
      have := ho.one
      simp at this
      exact this
    subst hms
    have hnd := ho.nodup m (by simp)
    unfold toCaused
    rw [tasks_flatten scale p t part hp hp2 ho.size]
    unfold causedRaw
    simp only [List.flatMap_cons, List.flatMap_nil, List.append_nil, List.map_filterMap]
    let f : Nat → Option (Caused F) := fun k => p.synapses[k]?.map fun s => ⟨futureStep s.delay t, t, impactOf k s⟩
    have e1 : (m.neuronIndexes.flatMap fun n => (p.find n).filterMap f) =
        (m.neuronIndexes.flatMap p.find).filterMap f := by
      induction m.neuronIndexes with
      | nil => rfl
      | cons n l ih => rw [List.flatMap_cons, List.flatMap_cons, List.filterMap_append, ih]
    have e2 : ((List.range p.synapses.length).filterMap fun k =>
        (multiImpact scale p m.neuronIndexes t k).map (fun e => (⟨e.1, t, e.2⟩ : Caused F))) =
        ((List.range p.synapses.length).filter fun k =>
          decide (∃ s, p.synapses[k]? = some s ∧ s.source ∈ m.neuronIndexes)).filterMap f := by
      rw [List.filterMap_filter]
      apply List.filterMap_congr
      intro k _
      unfold multiImpact
      cases hk : p.synapses[k]? with
      | none => simp
      | some s =>
        by_cases hs : s.source ∈ m.neuronIndexes
        · have hc := List.count_eq_one_of_mem hnd hs
          simp only [hs, if_true, Option.map_some, hc, hsc]
          rw [if_pos (by simp [hs])]
          simp only [f, hk, Option.map_some]
          rfl
        · simp [hs]
    show (m.neuronIndexes.flatMap fun n => (p.find n).filterMap f).Perm _
    rw [e1, e2]
    apply List.Perm.filterMap
    have hfe := ho.exact
    apply (List.perm_ext_iff_of_nodup ?_ ?_).2
    · intro k
      rw [List.mem_flatMap, List.mem_filter, List.mem_range]
      constructor
      · rintro ⟨n, hn, hk⟩
        obtain ⟨s, h1, h2⟩ := ((hfe n).2 k).1 hk
        have := (List.getElem?_eq_some_iff.1 h1).1
        exact ⟨this, by simp only [decide_eq_true_eq]; exact ⟨s, h1, h2 ▸ hn⟩⟩
      · rintro ⟨_, h2⟩
        simp only [decide_eq_true_eq] at h2
        obtain ⟨s, h3, h4⟩ := h2
        exact ⟨s.source, h4, ((hfe s.source).2 k).2 ⟨s, h3, rfl⟩⟩
    · apply List.nodup_flatMap.2
      refine ⟨fun n _ => (hfe n).1, ?_⟩
      apply List.Pairwise.imp ?_ hnd
      intro a b hab
      show List.Disjoint (p.find a) (p.find b)
      intro k h1 h2
      obtain ⟨s1, h3, h4⟩ := ((hfe a).2 k).1 h1
      obtain ⟨s2, h5, h6⟩ := ((hfe b).2 k).1 h2
      rw [h3] at h5
      cases h5
      exact hab (h4.symm.trans h6)
    · exact List.Nodup.filter _ List.nodup_range

/-- C45, what holds: if in each step a projection gets at most one spike message, without repeated neurons, then
under every schedule and part size both backends send a message in the same steps, with the same header and
forcing flag and the same impacts up to order. -/
theorem C45_agree_partial (scale : F → Nat → F) (hsc : ∀ w, scale w 1 = w) (d : Ident) (start part : Nat)
    (hp : 1 ≤ part) (hp2 : part < two64) (hs : List (StepIn F)) (ho : ∀ h ∈ hs, OneMessage h)
    (orders : List (List (List (Nat × SynapticImpact F)))) (hsch : Scheduled scale part start hs orders)
    (i : Nat) (hi : i < hs.length) :
    ∃ a b, (runSingle d start [] hs).1[i]? = some a ∧ (runMulti d start [] orders).1[i]? = some b ∧
      (delivered a).Perm (delivered b) ∧ a.isSome = b.isSome ∧
      a.map (fun m => (m.header, m.isForcing)) = b.map (fun m => (m.header, m.isForcing)) := by
  have hrel : ∀ (hs : List (StepIn F)) (t : Nat) (os : List (List (List (Nat × SynapticImpact F)))),
      (∀ h ∈ hs, OneMessage h) → Scheduled scale part t hs os → Rel t (rawAll t hs) (multiAll t os) := by
    intro hs
    induction hs with
    | nil => intro t os _ h; cases os with
      | nil => trivial
      | cons o os => exact absurd h (by simp [Scheduled])
    | cons h hs ih =>
      intro t os ho hsch
      cases os with
      | nil => exact absurd hsch (by simp [Scheduled])
      | cons o os =>
        exact ⟨raw_perm scale hsc t part hp hp2 h (ho h (by simp)) o hsch.1, cause_raw t h,
          ih _ _ (fun h hh => ho h (List.mem_cons_of_mem _ hh)) hsch.2⟩
  have hr := hrel hs start orders ho hsch
  have hlen : ∀ (as bs : List (List (Caused F))) (t : Nat), Rel t as bs → as.length = bs.length := by
    intro as
    induction as with
    | nil => intro bs t h; cases bs with
      | nil => rfl
      | cons b bs => exact absurd h (by simp [Rel])
    | cons a as ih =>
      intro bs t h
      cases bs with
      | nil => exact absurd h (by simp [Rel])
      | cons b bs => simp [ih bs _ h.2.2]
  have hl := hlen _ _ _ hr
  obtain ⟨h1, _⟩ := runGen_spec (mkSingle d) (fun _ _ => rfl) (rawAll start hs) start [] [] (by intro d _; rfl)
  obtain ⟨h2, _⟩ := runGen_spec (mkMulti d) (fun _ _ => rfl) (multiAll start orders) start [] []
    (by intro d _; rfl)
  have hi1 : i < (rawAll start hs).length := by rw [rawAll_length]; exact hi
  rw [runSingle_eq, runMulti_eq]
  refine ⟨_, _, h1 i hi1, h2 i (by omega), ?_⟩
  obtain ⟨p1, p2⟩ := rel_spec _ _ _ (rel_take _ _ (i + 1) _ hr) (fun c => c.due == start + i)
  simp only [List.nil_append]
  generalize ((rawAll start hs).take (i + 1)).flatten.filter (fun c : Caused F => c.due == start + i) = A at p1 p2
  generalize ((multiAll start orders).take (i + 1)).flatten.filter (fun c => c.due == start + i) = B at p1 p2
  cases A with
  | nil =>
    rw [p1.symm.eq_nil]
    exact ⟨List.Perm.refl _, rfl, rfl⟩
  | cons x A =>
    cases B with
    | nil => exact absurd p1.length_eq (by simp)
    | cons y B =>
      have hxy : x.cause = y.cause := by simpa using p2
      refine ⟨p1.map _, rfl, ?_⟩
      simp [msgOf, mkSingle, mkMulti, hxy]

/-- Two tasks (part size 2) that enter their critical sections in reverse order. -/
example : (runMulti ⟨77, 1, 2, true⟩ 10 [] [((tasks (fun (w : Int) c => w * c) exProj 10 2
    [⟨⟨1, 10⟩, [0, 1]⟩]).reverse)]).1.map delivered = [[⟨0, 5, .excitatory, 0, 0⟩]] := by decide

/-! ### C42 on threads -/

/-- What the spikes of one step cause through synapse `k` on the multi-threaded backend: one impact if its source neuron is in the
first message, with the weight times the number of its spikes there. -/
def countedThrough (scale : F → Nat → F) (h : StepIn F) (k : Nat) : List (SynapticImpact F) :=
  match h.proj.synapses[k]?, h.msgs with
  | some s, m :: _ => if s.source ∈ m.neuronIndexes then
      [⟨k, scale s.weight (m.neuronIndexes.count s.source), s.outType, s.source, s.target⟩] else []
  | _, _ => []

private theorem filterMap_index {β : Type} (f : Nat → Option β) (idx : β → Nat) (hf : ∀ i b, f i = some b → idx b = i) (k : Nat) :
    ∀ n : Nat, ((List.range n).filterMap f).filter (fun b => idx b == k) = if k < n then (f k).toList else [] := by
  intro n
  induction n with
  | zero => simp
  | succ n ih =>
    rw [List.range_succ, List.filterMap_append, List.filter_append, ih]
    have e : ([n].filterMap f).filter (fun b => idx b == k) = if k = n then (f k).toList else [] := by
      cases hn : f n with
      | none =>
        simp only [List.filterMap_cons, hn, List.filterMap_nil, List.filter_nil]
        split
        · rename_i he; rw [he, hn]; rfl
        · rfl
      | some b =>
        have := hf n b hn
        by_cases hk : k = n
        · subst hk
          simp [hn, this]
        · simp [hn, this, Ne.symm hk, hk]
    rw [e]
    by_cases h1 : k < n
    · simp [h1, show k ≠ n by omega, show k < n + 1 by omega]
    · by_cases h2 : k = n
      · simp [h2]
      · simp [h1, h2, show ¬ k < n + 1 by omega]

private theorem perm_small {α : Type} {a b : List α} (h : a.Perm b) (hb : b.length ≤ 1) : a = b := by
  match b, hb with
  | [], _ => exact h.eq_nil
  | [x], _ => exact List.perm_singleton.1 h

private theorem order_index (scale : F → Nat → F) (t part : Nat) (hp : 1 ≤ part) (hp2 : part < two64) (h : StepIn F)
    (hsz : h.proj.synapses.length ≤ 2 ^ 63) (hs : Sound t h.proj) (o : List (List (Nat × SynapticImpact F)))
    (ho : o.Perm (tasks scale h.proj t part h.msgs)) (k : Nat) :
    (toCaused t o).filter (fun c => c.impact.connectionIndex == k) =
      match h.proj.synapses[k]? with
      | some s => (countedThrough scale h k).map (fun im => ⟨t + s.delay - 1, t, im⟩)
      | none => [] := by
  obtain ⟨p, msgs⟩ := h
  cases msgs with
  | nil =>
    have : o = [] := by
      have := ho.length_eq
      simpa [tasks] using this
    subst this
    unfold countedThrough toCaused
    cases p.synapses[k]? <;> rfl
  | cons m ms =>
    have hfl := ho.flatten
    rw [tasks_flatten scale p t part hp hp2 hsz m ms] at hfl
    have h1 := (hfl.map (fun e => (⟨e.1, t, e.2⟩ : Caused F))).filter (fun c => c.impact.connectionIndex == k)
    have e0 : (toCaused t o).filter (fun c => c.impact.connectionIndex == k) =
        ((o.flatten).map (fun e => (⟨e.1, t, e.2⟩ : Caused F))).filter (fun c => c.impact.connectionIndex == k) := rfl
    rw [e0]
    have hidx : ∀ i b, multiImpact scale p m.neuronIndexes t i = some b → b.2.connectionIndex = i := by
      intro i b hb
      unfold multiImpact at hb
      cases hk : p.synapses[i]? with
      | none => rw [hk] at hb; cases hb
      | some s =>
        rw [hk] at hb
        simp only at hb
        split at hb
        · simp only [Option.some.injEq] at hb
          rw [← hb]
          rfl
        · cases hb
    have h2 := filterMap_index (multiImpact scale p m.neuronIndexes t) (fun b => b.2.connectionIndex) hidx k p.synapses.length
    rw [List.filter_map] at h1
    have e1 : ((fun c : Caused F => c.impact.connectionIndex == k) ∘ fun e : Nat × SynapticImpact F => (⟨e.1, t, e.2⟩ : Caused F)) =
        fun b : Nat × SynapticImpact F => b.2.connectionIndex == k := rfl
    rw [List.filter_map, e1] at h1
    rw [h2] at h1
    rw [List.filter_map, e1]
    have h3 := perm_small h1 (by
      rw [List.length_map]
      split
      · cases multiImpact scale p m.neuronIndexes t k <;> simp
      · simp)
    rw [h3]
    cases hk : p.synapses[k]? with
    | none =>
      simp only
      have : ¬ k < p.synapses.length := by
        rw [List.getElem?_eq_none_iff] at hk; omega
      rw [if_neg this]; rfl
    | some s =>
      simp only
      have hlt : k < p.synapses.length := (List.getElem?_eq_some_iff.1 hk).1
      rw [if_pos hlt]
      unfold multiImpact countedThrough
      simp only [hk]
      obtain ⟨q1, q2, q3, q4⟩ := hs s (List.mem_of_getElem? hk)
      by_cases hm : s.source ∈ m.neuronIndexes
      · rw [if_pos hm, if_pos hm]
        simp only [Option.toList_some, List.map_cons, List.map_nil]
        rw [futureStep_eq s.delay t q3 q4]
        unfold impactOf
        simp only
        rw [Nat.mod_eq_of_lt q1, Nat.mod_eq_of_lt q2]
      · rw [if_neg hm, if_neg hm]; rfl

private theorem delivered_msgOf (mk : Nat → SynapticImpact F → SynapticImpactMessage F) (l : List (Caused F)) :
    delivered (msgOf mk l) = l.map Caused.impact := by
  cases l <;> rfl

private theorem scheduled_length {scale : F → Nat → F} {part : Nat} : ∀ (hs : List (StepIn F)) (t : Nat)
    (os : List (List (List (Nat × SynapticImpact F)))), Scheduled scale part t hs os → os.length = hs.length := by
  intro hs
  induction hs with
  | nil => intro t os h; cases os with
    | nil => rfl
    | cons o os => exact absurd h (by simp [Scheduled])
  | cons a as ih =>
    intro t os h
    cases os with
    | nil => exact absurd h (by simp [Scheduled])
    | cons b bs => simp [ih _ bs h.2]

/-- C42 on the multi-threaded backend, while weights are trained, for every schedule and part size: if synapse `k` keeps its delay
`D`, what is delivered through it in a step is one impact if its source neuron was in the first message of `D - 1` steps before, with
the weight it had then times the number of spikes, and nothing otherwise. -/
theorem C42_threads (scale : F → Nat → F) (d : Ident) (start part : Nat) (hp : 1 ≤ part) (hp2 : part < two64)
    (hs : List (StepIn F)) (hsz : ∀ h ∈ hs, h.proj.synapses.length ≤ 2 ^ 63)
    (hsound : ∀ i (h : i < hs.length), Sound (start + i) hs[i].proj)
    (orders : List (List (List (Nat × SynapticImpact F)))) (hsch : Scheduled scale part start hs orders) (k D : Nat)
    (hk : ∀ h ∈ hs, ∃ s, h.proj.synapses[k]? = some s ∧ s.delay = D) (i : Nat) (hi : i < hs.length) :
    ∃ out, (runMulti d start [] orders).1[i]? = some out ∧ (∀ m, out = some m → m.header.senderUid = d.uid) ∧
      (delivered out).filter (fun im => im.connectionIndex == k) =
        if h : D - 1 ≤ i then countedThrough scale (hs[i - (D - 1)]'(by omega)) k else [] := by
  have hD : 1 ≤ D := by
    obtain ⟨s, hs1, hs2⟩ := hk hs[i] (List.getElem_mem hi)
    have := (hsound i hi s (List.mem_of_getElem? hs1)).2.2.1
    omega
  obtain ⟨h2, _⟩ := runGen_spec (mkMulti d) (fun _ _ => rfl) (multiAll start orders) start [] [] (by intro d _; rfl)
  rw [runMulti_eq]
  refine ⟨_, h2 i (by rw [multiAll_length, scheduled_length _ _ _ hsch]; exact hi), ?_, ?_⟩
  · intro m hm
    generalize List.filter _ _ = cl at hm
    cases cl with
    | nil => simp [msgOf] at hm
    | cons c cs =>
      simp only [msgOf, Option.some.injEq] at hm
      rw [← hm]
      rfl
  · rw [delivered_msgOf, List.nil_append, List.filter_map, List.filter_filter]
    have hfun : (fun a : Caused F => ((fun im => im.connectionIndex == k) ∘ Caused.impact) a &&
        a.due == start + i) = (fun c => c.due == start + i && c.impact.connectionIndex == k) := by
      funext a; simp [Bool.and_comm]
    rw [hfun]
    have gen : ∀ (l : List (StepIn F)) (os : List (List (List (Nat × SynapticImpact F)))) (t T n : Nat),
        (∀ h ∈ l, h.proj.synapses.length ≤ 2 ^ 63) → (∀ i (h : i < l.length), Sound (t + i) l[i].proj) →
        Scheduled scale part t l os →
        (∀ h ∈ l, ∃ s, h.proj.synapses[k]? = some s ∧ s.delay = D) →
        ((((multiAll t os).take n).flatten).filter (fun c => c.due == T && c.impact.connectionIndex == k)).map Caused.impact =
          if t + D - 1 ≤ T then (((l.take n)[T - (t + D - 1)]?).map (countedThrough scale · k)).getD [] else [] := by
      intro l
      induction l with
      | nil =>
        intro os t T n _ _ h _
        cases os with
        | nil => simp [multiAll]
        | cons o os => exact absurd h (by simp [Scheduled])
      | cons m l ih =>
        intro os t T n hz hso hsc hk
        cases os with
        | nil => exact absurd hsc (by simp [Scheduled])
        | cons o os =>
          cases n with
          | zero => simp
          | succ n =>
            rw [multiAll, List.take_succ_cons, List.take_succ_cons, List.flatten_cons, List.filter_append, List.map_append]
            obtain ⟨s, hs1, hs2⟩ := hk m (by simp)
            rw [ih os (t + 1) T n (fun h hh => hz h (by simp [hh])) (fun i h => by
              have := hso (i + 1) (by simpa using h)
              rw [show t + 1 + i = t + (i + 1) by omega]
              exact this) hsc.2 (fun h hh => hk h (by simp [hh]))]
            have e : (toCaused t o).filter (fun c => c.due == T && c.impact.connectionIndex == k) =
                ((toCaused t o).filter (fun c => c.impact.connectionIndex == k)).filter (fun c => c.due == T) := by
              rw [List.filter_filter]
            rw [e, order_index scale t part hp hp2 m (hz m (by simp)) (hso 0 (by simp)) o hsc.1 k, hs1]
            simp only [List.filter_map]
            rw [hs2, List.map_map]
            by_cases h1 : t + D - 1 = T
            · have h3 : ¬ t + 1 + D - 1 ≤ T := by omega
              have h4 : T - (t + D - 1) = 0 := by omega
              rw [if_neg h3, if_pos (by omega), h4]
              have e2 : ((fun c : Caused F => c.due == T) ∘ fun im => (⟨t + D - 1, t, im⟩ : Caused F)) = fun _ => true := by
                funext im; simp [h1]
              rw [e2, List.append_nil]
              have e3 : (Caused.impact ∘ fun im => (⟨t + D - 1, t, im⟩ : Caused F)) = id := rfl
              rw [e3]
              simp
            · have e2 : ((fun c : Caused F => c.due == T) ∘ fun im => (⟨t + D - 1, t, im⟩ : Caused F)) = fun _ => false := by
                funext im; simp [h1]
              rw [e2]
              simp only [List.filter_false, List.map_nil, List.nil_append]
              by_cases h2 : t + D - 1 ≤ T
              · have h3 : t + 1 + D - 1 ≤ T := by omega
                have h4 : T - (t + D - 1) = T - (t + 1 + D - 1) + 1 := by omega
                rw [if_pos h3, if_pos h2, h4]
                simp
              · rw [if_neg h2, if_neg (by omega)]
    rw [gen hs orders start (start + i) (i + 1) hsz hsound hsch hk]
    by_cases h1 : D - 1 ≤ i
    · rw [dif_pos h1, if_pos (by omega), show start + i - (start + D - 1) = i - (D - 1) by omega,
        List.getElem?_take_of_lt (by omega), List.getElem?_eq_getElem (by omega)]
      rfl
    · rw [dif_neg h1, if_neg (by omega)]

/-- And nothing else is delivered: every impact is what some earlier step sent through a synapse. -/
theorem C42_threads_only (scale : F → Nat → F) (d : Ident) (start part : Nat) (hp : 1 ≤ part) (hp2 : part < two64)
    (hs : List (StepIn F)) (hsz : ∀ h ∈ hs, h.proj.synapses.length ≤ 2 ^ 63)
    (hsound : ∀ i (h : i < hs.length), Sound (start + i) hs[i].proj)
    (orders : List (List (List (Nat × SynapticImpact F)))) (hsch : Scheduled scale part start hs orders) (i : Nat)
    (hi : i < hs.length) :
    ∃ out, (runMulti d start [] orders).1[i]? = some out ∧
      ∀ im ∈ delivered out, ∃ h ∈ hs, im ∈ countedThrough scale h im.connectionIndex := by
  obtain ⟨h2, _⟩ := runGen_spec (mkMulti d) (fun _ _ => rfl) (multiAll start orders) start [] [] (by intro d _; rfl)
  rw [runMulti_eq]
  refine ⟨_, h2 i (by rw [multiAll_length, scheduled_length _ _ _ hsch]; exact hi), ?_⟩
  intro im him
  rw [delivered_msgOf, List.nil_append] at him
  obtain ⟨c, hc, rfl⟩ := List.mem_map.1 him
  have hc := (List.mem_filter.1 hc).1
  have hc : c ∈ (multiAll start orders).flatten := by
    obtain ⟨l, h1, h2⟩ := List.mem_flatten.1 hc
    exact List.mem_flatten.2 ⟨l, List.mem_of_mem_take h1, h2⟩
  have gen : ∀ (l : List (StepIn F)) (os : List (List (List (Nat × SynapticImpact F)))) (t : Nat),
      (∀ h ∈ l, h.proj.synapses.length ≤ 2 ^ 63) → (∀ i (h : i < l.length), Sound (t + i) l[i].proj) →
      Scheduled scale part t l os → c ∈ (multiAll t os).flatten →
      ∃ h ∈ l, c.impact ∈ countedThrough scale h c.impact.connectionIndex := by
    intro l
    induction l with
    | nil =>
      intro os t _ _ h hm
      cases os with
      | nil => simp [multiAll] at hm
      | cons o os => exact absurd h (by simp [Scheduled])
    | cons m l ih =>
      intro os t hz hso hsc hm
      cases os with
      | nil => exact absurd hsc (by simp [Scheduled])
      | cons o os =>
        rw [multiAll, List.flatten_cons, List.mem_append] at hm
        rcases hm with hm | hm
        · refine ⟨m, by simp, ?_⟩
          have hf : c ∈ (toCaused t o).filter (fun x => x.impact.connectionIndex == c.impact.connectionIndex) :=
            List.mem_filter.2 ⟨hm, by simp⟩
          rw [order_index scale t part hp hp2 m (hz m (by simp)) (hso 0 (by simp)) o hsc.1] at hf
          cases hk : m.proj.synapses[c.impact.connectionIndex]? with
          | none => rw [hk] at hf; simp at hf
          | some s =>
            rw [hk] at hf
            simp only at hf
            obtain ⟨im, h1, h2⟩ := List.mem_map.1 hf
            have : c.impact = im := by rw [← h2]
            rw [← this] at h1
            exact h1
        · obtain ⟨x, hx, hx'⟩ := ih os (t + 1) (fun h hh => hz h (by simp [hh])) (fun i h => by
              have := hso (i + 1) (by simpa using h)
              rw [show t + 1 + i = t + (i + 1) by omega]
              exact this) hsc.2 hm
          exact ⟨x, by simp [hx], hx'⟩
  exact gen hs orders start hsz hsound hsch hc

/-- Three spikes of neuron 0 in one message, delay 2: one impact with three times the weight of that step; parts of one, run backwards. -/
example : (runMulti ⟨10, 1, 2, false⟩ 0 [] [(tasks (fun (w : Int) c => w * c) ⟨[⟨0, 0, (5 : Int), 2, .excitatory⟩, ⟨1, 0, 7, 1, .excitatory⟩],
    fun n => if n = 0 then [0] else []⟩ 0 1 [⟨⟨1, 0⟩, [0, 0, 1, 0]⟩, ⟨⟨1, 0⟩, [1]⟩]).reverse, []]).1.map (fun o => (delivered o).map (fun i => (i.connectionIndex, i.impactValue))) =
    [[(1, 7)], [(0, 15)]] := by decide +kernel

/-! ### One step, from queues that agree -/

/-- Two sent (or queued) messages with the same sender, time and forcing flag and the same impacts up to order; or none. -/
def SameImpacts (a b : Option (SynapticImpactMessage F)) : Prop :=
  (delivered a).Perm (delivered b) ∧ a.isSome = b.isSome ∧
    a.map (fun m => (m.header, m.isForcing)) = b.map (fun m => (m.header, m.isForcing))

private theorem pushAll_find (mk : Nat → SynapticImpact F → SynapticImpactMessage F)
    (hmk : ∀ t i, (mk t i).impacts = [i]) (l : List (Caused F)) : ∀ (q : Queue F) (d : Nat),
    qFind (pushAll mk l q) d = match qFind q d with
      | some m => some { m with impacts := m.impacts ++ (l.filter (fun c => c.due == d)).map Caused.impact }
      | none => msgOf mk (l.filter (fun c => c.due == d)) := by
  intro q d
  cases h : qFind q d with
  | none =>
    have := pushAll_spec mk hmk l q d [] (by rw [h]; rfl)
    simpa using this
  | some m =>
    simp only
    induction l generalizing q m with
    | nil => simp [pushAll, h]
    | cons c l ih =>
      have e : pushAll mk (c :: l) q = pushAll mk l (qPush (mk c.cause) c.due c.impact q) := rfl
      rw [e]
      by_cases hd : c.due = d
      · have hq : qFind (qPush (mk c.cause) c.due c.impact q) d = some { m with impacts := m.impacts ++ [c.impact] } := by
          rw [qFind_push, if_pos hd.symm, hd, h]
        rw [ih _ _ hq]
        simp [hd, List.append_assoc]
      · have hq : qFind (qPush (mk c.cause) c.due c.impact q) d = some m := by
          rw [qFind_push, if_neg (fun e => hd e.symm), h]
        rw [ih _ _ hq]
        simp [hd]

private theorem stepGen_find (mk : Nat → SynapticImpact F → SynapticImpactMessage F) (t : Nat) (l : List (Caused F))
    (q : Queue F) : (stepGen mk t l q).1 = qFind (pushAll mk l q) t ∧
      ∀ d, t + 1 ≤ d → qFind (stepGen mk t l q).2 d = qFind (pushAll mk l q) d := by
  constructor
  · unfold stepGen
    simp only
    split <;> simp_all
  · intro d hd
    unfold stepGen
    simp only
    split
    · exact qFind_erase _ _ _ (by omega)
    · rfl

/-- C45 for one step: from queues that agree, both calculations send the same impacts and leave queues that agree. -/
theorem C45_step_partial (scale : F → Nat → F) (hsc : ∀ w, scale w 1 = w) (d : Ident) (t part : Nat)
    (hp : 1 ≤ part) (hp2 : part < two64) (p : Proj F) (msgs : List SpikeMessage) (ho : OneMessage ⟨p, msgs⟩)
    (order : List (List (Nat × SynapticImpact F))) (hord : order.Perm (tasks scale p t part msgs)) (q1 q2 : Queue F)
    (hq : ∀ due, t ≤ due → SameImpacts (qFind q1 due) (qFind q2 due)) :
    SameImpacts (stepSingle d p t q1 msgs).1 (stepMulti d t q2 order).1 ∧
    ∀ due, t + 1 ≤ due → SameImpacts (qFind (stepSingle d p t q1 msgs).2 due) (qFind (stepMulti d t q2 order).2 due) := by
  have e1 : stepSingle d p t q1 msgs = stepGen (mkSingle d) t (causedRaw t ⟨p, msgs⟩) q1 := by
    unfold stepSingle stepGen
    rw [calcSingle_eq d ⟨p, msgs⟩ t q1]
    rfl
  have e0 : ∀ q, order.foldl (mergeContainer d t) q = pushAll (mkMulti d) (toCaused t order) q := by
    intro q
    rw [foldl_pushAll (mkMulti d) (mergeContainer d t) (fun c => c.map (fun e => ⟨e.1, t, e.2⟩))]
    · unfold toCaused
      rw [List.map_flatten, List.flatMap_def]
    · intro q c
      unfold mergeContainer pushAll
      rw [List.foldl_map]
  have e2 : stepMulti d t q2 order = stepGen (mkMulti d) t (toCaused t order) q2 := by
    unfold stepMulti stepGen
    rw [e0]
    rfl
  have hperm := raw_perm scale hsc t part hp hp2 ⟨p, msgs⟩ ho order hord
  have hcause := cause_raw t (⟨p, msgs⟩ : StepIn F)
  have hfind : ∀ due, t ≤ due → SameImpacts (qFind (pushAll (mkSingle d) (causedRaw t ⟨p, msgs⟩) q1) due)
      (qFind (pushAll (mkMulti d) (toCaused t order) q2) due) := by
    intro due hdue
    rw [pushAll_find (mkSingle d) (fun _ _ => rfl), pushAll_find (mkMulti d) (fun _ _ => rfl)]
    have hA := hperm.filter (fun c : Caused F => c.due == due)
    have hcA : ∀ c ∈ (causedRaw t (⟨p, msgs⟩ : StepIn F)).filter (fun c => c.due == due), c.cause = t :=
      fun c hc => hcause c (List.mem_of_mem_filter hc)
    generalize (causedRaw t (⟨p, msgs⟩ : StepIn F)).filter (fun c : Caused F => c.due == due) = A at hA hcA
    generalize (toCaused t order).filter (fun c : Caused F => c.due == due) = B at hA
    obtain ⟨h1, h2, h3⟩ := hq due hdue
    cases hx : qFind q1 due with
    | none =>
      cases hy : qFind q2 due with
      | some y => rw [hx, hy] at h2; simp at h2
      | none =>
        simp only
        cases A with
        | nil => rw [hA.symm.eq_nil]; exact ⟨List.Perm.refl _, rfl, rfl⟩
        | cons x A =>
          cases B with
          | nil => exact absurd hA.length_eq (by simp)
          | cons y B =>
            have hxc : x.cause = t := hcA x (by simp)
            have hyc : y.cause = t := hcA y (hA.mem_iff.2 (by simp))
            exact ⟨hA.map _, rfl, by simp [msgOf, mkSingle, mkMulti, hxc, hyc]⟩
    | some x =>
      cases hy : qFind q2 due with
      | none => rw [hx, hy] at h2; simp at h2
      | some y =>
        rw [hx, hy] at h1 h3
        simp only
        refine ⟨?_, rfl, ?_⟩
        · exact h1.append (hA.map _)
        · simpa using h3
  rw [e1, e2]
  obtain ⟨a1, a2⟩ := stepGen_find (mkSingle d) t (causedRaw t ⟨p, msgs⟩) q1
  obtain ⟨b1, b2⟩ := stepGen_find (mkMulti d) t (toCaused t order) q2
  refine ⟨by rw [a1, b1]; exact hfind t (Nat.le_refl _), fun due hdue => ?_⟩
  rw [a2 due hdue, b2 due hdue]
  exact hfind due (by omega)

/-- C45 for one step of the multi-threaded calculation: from queues that agree, two orders of the critical sections (also of different tasks with the same
impacts) send the same impacts and leave queues that agree. -/
theorem C45_order_step (d : Ident) (t : Nat) (o1 o2 : List (List (Nat × SynapticImpact F))) (hord : o1.flatten.Perm o2.flatten)
    (q1 q2 : Queue F) (hq : ∀ due, t ≤ due → SameImpacts (qFind q1 due) (qFind q2 due)) :
    SameImpacts (stepMulti d t q1 o1).1 (stepMulti d t q2 o2).1 ∧
    ∀ due, t + 1 ≤ due → SameImpacts (qFind (stepMulti d t q1 o1).2 due) (qFind (stepMulti d t q2 o2).2 due) := by
  have e0 : ∀ (o : List (List (Nat × SynapticImpact F))) q, o.foldl (mergeContainer d t) q = pushAll (mkMulti d) (toCaused t o) q := by
    intro o q
    rw [foldl_pushAll (mkMulti d) (mergeContainer d t) (fun c => c.map (fun e => ⟨e.1, t, e.2⟩))]
    · unfold toCaused
      rw [List.map_flatten, List.flatMap_def]
    · intro q c
      unfold mergeContainer pushAll
      rw [List.foldl_map]
  have e2 : ∀ (q : Queue F) o, stepMulti d t q o = stepGen (mkMulti d) t (toCaused t o) q := by
    intro q o
    unfold stepMulti stepGen
    rw [e0]
    rfl
  have hperm : (toCaused t o1).Perm (toCaused t o2) := hord.map _
  have hcause : ∀ (o : List (List (Nat × SynapticImpact F))), ∀ c ∈ toCaused t o, c.cause = t := by
    intro o c hc
    obtain ⟨e, _, rfl⟩ := List.mem_map.1 hc
    rfl
  have hfind : ∀ due, t ≤ due → SameImpacts (qFind (pushAll (mkMulti d) (toCaused t o1) q1) due)
      (qFind (pushAll (mkMulti d) (toCaused t o2) q2) due) := by
    intro due hdue
    rw [pushAll_find (mkMulti d) (fun _ _ => rfl), pushAll_find (mkMulti d) (fun _ _ => rfl)]
    have hA := hperm.filter (fun c : Caused F => c.due == due)
    have hcA : ∀ c ∈ (toCaused t o1).filter (fun c => c.due == due), c.cause = t :=
      fun c hc => hcause o1 c (List.mem_of_mem_filter hc)
    generalize (toCaused t o1).filter (fun c : Caused F => c.due == due) = A at hA hcA
    generalize (toCaused t o2).filter (fun c : Caused F => c.due == due) = B at hA
    obtain ⟨h1, h2, h3⟩ := hq due hdue
    cases hx : qFind q1 due with
    | none =>
      cases hy : qFind q2 due with
      | some y => rw [hx, hy] at h2; simp at h2
      | none =>
        simp only
        cases A with
        | nil => rw [hA.symm.eq_nil]; exact ⟨List.Perm.refl _, rfl, rfl⟩
        | cons x A =>
          cases B with
          | nil => exact absurd hA.length_eq (by simp)
          | cons y B =>
            have hxc : x.cause = t := hcA x (by simp)
            have hyc : y.cause = t := hcA y (hA.mem_iff.2 (by simp))
            exact ⟨hA.map _, rfl, by simp [msgOf, mkMulti, hxc, hyc]⟩
    | some x =>
      cases hy : qFind q2 due with
      | none => rw [hx, hy] at h2; simp at h2
      | some y =>
        rw [hx, hy] at h1 h3
        simp only
        refine ⟨?_, rfl, ?_⟩
        · exact h1.append (hA.map _)
        · simpa using h3
  rw [e2, e2]
  obtain ⟨a1, a2⟩ := stepGen_find (mkMulti d) t (toCaused t o1) q1
  obtain ⟨b1, b2⟩ := stepGen_find (mkMulti d) t (toCaused t o2) q2
  refine ⟨by rw [a1, b1]; exact hfind t (Nat.le_refl _), fun due hdue => ?_⟩
  rw [a2 due hdue, b2 due hdue]
  exact hfind due (by omega)

/-- Two tasks in both orders. -/
example : (tasks (fun (w : Int) c => w * c) exProj 10 2 [⟨⟨1, 10⟩, [0, 1]⟩]).reverse.flatten.Perm
    (tasks (fun (w : Int) c => w * c) exProj 10 2 [⟨⟨1, 10⟩, [0, 1]⟩]).flatten := (List.reverse_perm _).flatten
example : (tasks (fun (w : Int) c => w * c) exProj 10 2 [⟨⟨1, 10⟩, [0, 1]⟩]).length = 2 := by decide

/-- The impacts of all tasks depend neither on the size of the parts nor on the order of the spikes. -/
theorem tasks_same (scale : F → Nat → F) (p : Proj F) (t part part' : Nat) (hp : 1 ≤ part ∧ part < two64)
    (hp' : 1 ≤ part' ∧ part' < two64) (hsz : p.synapses.length ≤ 2 ^ 63) (m m' : SpikeMessage) (ms ms' : List SpikeMessage)
    (h : m.neuronIndexes.Perm m'.neuronIndexes) :
    (tasks scale p t part (m :: ms)).flatten = (tasks scale p t part' (m' :: ms')).flatten := by
  rw [tasks_flatten scale p t part hp.1 hp.2 hsz, tasks_flatten scale p t part' hp'.1 hp'.2 hsz]
  apply List.filterMap_congr
  intro k _
  unfold multiImpact
  cases p.synapses[k]? with
  | none => rfl
  | some s => simp only [h.mem_iff, h.count_eq]

/-- The tasks do not depend on the order of the spikes in the message, nor on its header. -/
theorem tasks_perm (scale : F → Nat → F) (p : Proj F) (t part : Nat) (m m' : SpikeMessage)
    (h : m.neuronIndexes.Perm m'.neuronIndexes) : tasks scale p t part [m] = tasks scale p t part [m'] := by
  have hc : ∀ n, countOf (convertSpikes m.neuronIndexes) n = countOf (convertSpikes m'.neuronIndexes) n := by
    intro n
    rw [countOf_convert, countOf_convert, h.count_eq]
    by_cases hn : n ∈ m.neuronIndexes
    · rw [if_pos hn, if_pos (h.mem_iff.1 hn)]
    · rw [if_neg hn, if_neg (fun h' => hn (h.mem_iff.2 h'))]
  unfold tasks
  simp only
  split
  · rfl
  · apply List.map_congr_left
    intro lo _
    unfold partContainer
    apply List.filterMap_congr
    intro k _
    cases p.synapses[k]? with
    | none => rfl
    | some s => simp only [hc]

/-! ### Repeated neurons: equal totals -/

/-- The total of the values delivered by synapse `k`. -/
def total [AddCommMonoid F] (k : Nat) (l : List (SynapticImpact F)) : F :=
  ((l.filter (fun im => im.connectionIndex == k)).map SynapticImpact.impactValue).sum

private def totalDue [AddCommMonoid F] (k T : Nat) (l : List (Caused F)) : F :=
  total k ((l.filter (fun c => c.due == T)).map Caused.impact)

private theorem total_append [AddCommMonoid F] (k : Nat) (a b : List (SynapticImpact F)) :
    total k (a ++ b) = total k a + total k b := by
  simp [total, List.filter_append]

private theorem totalDue_append [AddCommMonoid F] (k T : Nat) (a b : List (Caused F)) :
    totalDue k T (a ++ b) = totalDue k T a + totalDue k T b := by
  simp [totalDue, List.filter_append, total_append]

private theorem total_perm [AddCommMonoid F] (k : Nat) (a b : List (SynapticImpact F)) (h : a.Perm b) :
    total k a = total k b := (((h.filter _).map _)).sum_eq

private theorem totalDue_flatMap [AddCommMonoid F] {E : Type} (k T : Nat) (g : E → List (Caused F)) (l : List E) :
    totalDue k T (l.flatMap g) = (l.map (fun e => totalDue k T (g e))).sum := by
  induction l with
  | nil => rfl
  | cons e l ih => rw [List.flatMap_cons, totalDue_append, ih, List.map_cons, List.sum_cons]

/-- The totals of one step on both sides. -/
private theorem step_totals [AddCommMonoid F] (scale : F → Nat → F) (hsc : ∀ w c, scale w c = c • w) (t part : Nat)
    (hp : 1 ≤ part) (hp2 : part < two64) (h : StepIn F) (hex : ExactFind h.proj)
    (hsz : h.proj.synapses.length ≤ 2 ^ 63) (hone : h.msgs.length ≤ 1)
    (o : List (List (Nat × SynapticImpact F)))
    (hperm : o.Perm (tasks scale h.proj t part h.msgs)) (k T : Nat) :
    totalDue k T (causedRaw t h) = totalDue k T (toCaused t o) := by
  have hb : (toCaused t o).Perm (toCaused t (tasks scale h.proj t part h.msgs)) := hperm.flatten.map _
  have hb' : totalDue k T (toCaused t o) = totalDue k T (toCaused t (tasks scale h.proj t part h.msgs)) :=
    total_perm _ _ _ ((hb.filter _).map _)
  rw [hb']
  obtain ⟨p, msgs⟩ := h
  cases msgs with
  | nil => rfl
  | cons m ms =>
    have hms : ms = [] := by simpa using hone
    subst hms
    -- a list of synapse indices without repetition contributes through k only
    have key : ∀ (g : Nat → Option (Caused F)), (∀ j c, g j = some c → c.impact.connectionIndex = j) →
        ∀ l : List Nat, l.Nodup → totalDue k T (l.filterMap g) =
          if k ∈ l then totalDue k T (g k).toList else 0 := by
      intro g hg l
      induction l with
      | nil => intro _; rfl
      | cons j l ih =>
        intro hn
        have hn' := List.nodup_cons.1 hn
        have e : (j :: l).filterMap g = (g j).toList ++ l.filterMap g := by
          rw [List.filterMap_cons]; cases g j <;> rfl
        rw [e, totalDue_append, ih hn'.2]
        by_cases hjk : j = k
        · subst hjk
          rw [if_neg hn'.1, if_pos (by simp), add_zero]
        · have hz : totalDue k T (g j).toList = 0 := by
            cases hgj : g j with
            | none => rfl
            | some c =>
              have := hg j c hgj
              have hne : ¬ c.impact.connectionIndex = k := by rw [this]; exact hjk
              by_cases hd : c.due = T <;> simp [totalDue, total, hd, hne]
          rw [hz, zero_add]
          have : k ∈ j :: l ↔ k ∈ l := by
            rw [List.mem_cons]
            constructor
            · rintro (e | e)
              · exact absurd e.symm hjk
              · exact e
            · exact Or.inr
          simp only [this]
    unfold toCaused
    rw [tasks_flatten scale p t part hp hp2 hsz, List.map_filterMap]
    rw [key _ (by
      intro j c hc
      unfold multiImpact at hc
      cases hj : p.synapses[j]? with
      | none => simp only [hj, Option.map_none] at hc; cases hc
      | some s =>
        simp only [hj] at hc
        split at hc
        · simp only [Option.map_some, Option.some.injEq] at hc
          subst hc
          rfl
        · cases hc) _ List.nodup_range]
    unfold causedRaw
    simp only [List.flatMap_cons, List.flatMap_nil, List.append_nil]
    rw [totalDue_flatMap]
    have hfind : ∀ n, totalDue k T ((p.find n).filterMap fun k => p.synapses[k]?.map fun s =>
        (⟨futureStep s.delay t, t, impactOf k s⟩ : Caused F)) =
        if k ∈ p.find n then totalDue k T (p.synapses[k]?.map fun s =>
          (⟨futureStep s.delay t, t, impactOf k s⟩ : Caused F)).toList else 0 := by
      intro n
      rw [key _ (by
        intro j c hc
        cases hj : p.synapses[j]? with
        | none => simp only [hj, Option.map_none] at hc; cases hc
        | some s =>
          simp only [hj, Option.map_some, Option.some.injEq] at hc
          subst hc; rfl) _ (hex n).1]
    simp only [hfind]
    cases hk : p.synapses[k]? with
    | none =>
      have : k ∉ List.range p.synapses.length := by
        rw [List.mem_range]
        have := List.getElem?_eq_none_iff.1 hk
        omega
      rw [if_neg this]
      have h0 : ∀ n, k ∉ p.find n := by
        intro n hn
        obtain ⟨s, h1, _⟩ := ((hex n).2 k).1 hn
        rw [hk] at h1; cases h1
      simp [h0]
    | some s =>
      have hr : k ∈ List.range p.synapses.length := by
        rw [List.mem_range]
        exact (List.getElem?_eq_some_iff.1 hk).1
      rw [if_pos hr]
      have hmem : ∀ n, (k ∈ p.find n) ↔ n = s.source := by
        intro n
        rw [(hex n).2 k]
        constructor
        · rintro ⟨s', h1, h2⟩
          rw [hk] at h1; cases h1; exact h2.symm
        · intro e; exact ⟨s, hk, e.symm⟩
      simp only [hmem, Option.map_some, Option.toList_some]
      have hsum : ∀ (l : List Nat) (v : F), (l.map (fun n => if n = s.source then v else 0)).sum =
          l.count s.source • v := by
        intro l v
        induction l with
        | nil => simp
        | cons n l ih =>
          rw [List.map_cons, List.sum_cons, ih, List.count_cons]
          by_cases e : n = s.source
          · have hb : (n == s.source) = true := by simpa using e
            rw [if_pos e, if_pos hb, succ_nsmul']
          · simp [e]
      rw [hsum]
      unfold multiImpact
      simp only [hk]
      by_cases hin : s.source ∈ m.neuronIndexes
      · simp only [hin, if_true, Option.map_some, Option.toList_some]
        by_cases hd : futureStep s.delay t = T <;> simp [totalDue, total, hd, impactOf, hsc]
      · have : m.neuronIndexes.count s.source = 0 := List.count_eq_zero.2 hin
        simp [hin, this, totalDue, total]

/-- C45, repeated neurons: with at most one message per step – neurons may be repeated in it – and weights that
can be added in any order (`weight * count` being the `count`-fold sum), both backends deliver in every step,
for every synapse, the same total value. -/
theorem C45_totals_partial [AddCommMonoid F] (scale : F → Nat → F) (hsc : ∀ w c, scale w c = c • w) (d : Ident)
    (start part : Nat) (hp : 1 ≤ part) (hp2 : part < two64) (hs : List (StepIn F))
    (ho : ∀ h ∈ hs, ExactFind h.proj ∧ h.proj.synapses.length ≤ 2 ^ 63 ∧ h.msgs.length ≤ 1)
    (orders : List (List (List (Nat × SynapticImpact F)))) (hsch : Scheduled scale part start hs orders)
    (i : Nat) (hi : i < hs.length) :
    ∃ a b, (runSingle d start [] hs).1[i]? = some a ∧ (runMulti d start [] orders).1[i]? = some b ∧
      ∀ k, total k (delivered a) = total k (delivered b) := by
  have hgen : ∀ (hs : List (StepIn F)) (t j : Nat) (os : List (List (List (Nat × SynapticImpact F)))),
      (∀ h ∈ hs, ExactFind h.proj ∧ h.proj.synapses.length ≤ 2 ^ 63 ∧ h.msgs.length ≤ 1) →
      Scheduled scale part t hs os → hs.length = os.length ∧ ∀ k T, totalDue k T ((rawAll t hs).take j).flatten =
        totalDue k T ((multiAll t os).take j).flatten := by
    intro hs
    induction hs with
    | nil =>
      intro t j os _ h
      cases os with
      | nil => exact ⟨rfl, fun k T => by simp [rawAll, multiAll]⟩
      | cons o os => exact absurd h (by simp [Scheduled])
    | cons h hs ih =>
      intro t j os ho hsch
      cases os with
      | nil => exact absurd hsch (by simp [Scheduled])
      | cons o os =>
        obtain ⟨hl, _⟩ := ih (t + 1) 0 os (fun h hh => ho h (List.mem_cons_of_mem _ hh)) hsch.2
        refine ⟨by simp [hl], fun k T => ?_⟩
        cases j with
        | zero => rfl
        | succ j =>
          obtain ⟨_, hi⟩ := ih (t + 1) j os (fun h hh => ho h (List.mem_cons_of_mem _ hh)) hsch.2
          obtain ⟨q1, q2, q3⟩ := ho h (by simp)
          simp only [rawAll, multiAll, List.take_succ_cons, List.flatten_cons, totalDue_append]
          rw [hi, step_totals scale hsc t part hp hp2 h q1 q2 q3 o hsch.1]
  obtain ⟨hl, hg⟩ := hgen hs start (i + 1) orders ho hsch
  obtain ⟨h1, _⟩ := runGen_spec (mkSingle d) (fun _ _ => rfl) (rawAll start hs) start [] [] (by intro d _; rfl)
  obtain ⟨h2, _⟩ := runGen_spec (mkMulti d) (fun _ _ => rfl) (multiAll start orders) start [] []
    (by intro d _; rfl)
  rw [runSingle_eq, runMulti_eq]
  refine ⟨_, _, h1 i (by rw [rawAll_length]; exact hi), h2 i (by rw [multiAll_length]; omega), ?_⟩
  intro k
  have hdel : ∀ (mk : Nat → SynapticImpact F → SynapticImpactMessage F) (l : List (Caused F)),
      delivered (msgOf mk l) = l.map Caused.impact := by
    intro mk l; cases l <;> rfl
  rw [hdel, hdel, List.nil_append, List.nil_append]
  exact hg k (start + i)

/-- Neuron 0 twice in one message: two impacts of 5 against one of 10. -/
example : (runSingle (F := Int) ⟨77, 1, 2, true⟩ 10 [] [⟨exProj, [⟨⟨1, 10⟩, [0, 0]⟩]⟩]).1.map
      (fun o => (delivered o).map SynapticImpact.impactValue) = [[5, 5]] ∧
    (runMulti ⟨77, 1, 2, true⟩ 10 [] [tasks (fun (w : Int) c => c • w) exProj 10 2
      [⟨⟨1, 10⟩, [0, 0]⟩]]).1.map (fun o => (delivered o).map SynapticImpact.impactValue) = [[10]] := by
  constructor <;> decide

/-! ## C48 -/

/-- C48, single-threaded: every message sent, in any run, carries the projection as sender, its presynaptic
population as presynaptic UID, its postsynaptic one as postsynaptic UID, and its forcing flag. -/
theorem C48_single (d : Ident) (start : Nat) (hs : List (StepIn F)) (m : SynapticImpactMessage F)
    (h : some m ∈ (runSingle d start [] hs).1) :
    m.header.senderUid = d.uid ∧ m.presynapticPopulationUid = d.pre ∧ m.postsynapticPopulationUid = d.post ∧
      m.isForcing = d.forced := by
  rw [runSingle_eq] at h
  obtain ⟨i, hi, he⟩ := List.getElem_of_mem h
  have hlen' : ∀ (ls : List (List (Caused F))) (t : Nat) (q : Queue F), (runGen (mkSingle d) t q ls).1.length = ls.length := by
    intro ls
    induction ls with
    | nil => intro t q; rfl
    | cons l ls ih => intro t q; simp [runGen, ih]
  obtain ⟨h1, _⟩ := runGen_spec (mkSingle d) (fun _ _ => rfl) (rawAll start hs) start [] [] (by intro d _; rfl)
  have := h1 i (by rw [hlen'] at hi; exact hi)
  rw [List.getElem?_eq_getElem hi, he] at this
  have := Option.some.inj this
  generalize ([] ++ ((rawAll start hs).take (i + 1)).flatten).filter (fun c : Caused F => c.due == start + i) = A at this
  cases A with
  | nil => cases this
  | cons c A =>
    rw [Option.some.inj this]
    exact ⟨rfl, rfl, rfl, rfl⟩

/-- C48, multi-threaded: the two population UIDs are swapped in every message. -/
theorem C48_multi_swapped (d : Ident) (start : Nat) (orders : List (List (List (Nat × SynapticImpact F))))
    (m : SynapticImpactMessage F) (h : some m ∈ (runMulti d start [] orders).1) :
    m.header.senderUid = d.uid ∧ m.presynapticPopulationUid = d.post ∧ m.postsynapticPopulationUid = d.pre ∧
      m.isForcing = d.forced := by
  rw [runMulti_eq] at h
  obtain ⟨i, hi, he⟩ := List.getElem_of_mem h
  have hlen' : ∀ (ls : List (List (Caused F))) (t : Nat) (q : Queue F), (runGen (mkMulti d) t q ls).1.length = ls.length := by
    intro ls
    induction ls with
    | nil => intro t q; rfl
    | cons l ls ih => intro t q; simp [runGen, ih]
  obtain ⟨h1, _⟩ := runGen_spec (mkMulti d) (fun _ _ => rfl) (multiAll start orders) start [] []
    (by intro d _; rfl)
  have := h1 i (by rw [hlen'] at hi; exact hi)
  rw [List.getElem?_eq_getElem hi, he] at this
  have := Option.some.inj this
  generalize ([] ++ ((multiAll start orders).take (i + 1)).flatten).filter (fun c : Caused F => c.due == start + i) = A
    at this
  cases A with
  | nil => cases this
  | cons c A =>
    rw [Option.some.inj this]
    exact ⟨rfl, rfl, rfl, rfl⟩

/-- C48, full statement for the multi-threaded backend. -/
def C48_multi_statement : Prop :=
  ∀ (d : Ident) (start part : Nat) (hs : List (StepIn Int))
    (orders : List (List (List (Nat × SynapticImpact Int)))), 1 ≤ part →
    Scheduled (fun (w : Int) (c : Nat) => w * c) part start hs orders → ∀ m, some m ∈ (runMulti d start [] orders).1 →
    m.presynapticPopulationUid = d.pre ∧ m.postsynapticPopulationUid = d.post

/-- C48 is false on the multi-threaded backend. -/
theorem C48_multi_refuted : ¬ C48_multi_statement := by
  intro h
  have := h ⟨77, 1, 2, true⟩ 10 5 [⟨exProj, [⟨⟨1, 10⟩, [0]⟩]⟩]
    [tasks (fun w c => w * c) exProj 10 5 [⟨⟨1, 10⟩, [0]⟩]] (by decide) ⟨List.Perm.refl _, trivial⟩
    ⟨⟨77, 10⟩, 2, 1, true, [⟨0, 5, .excitatory, 0, 0⟩]⟩ (by decide)
  exact absurd this.1 (by decide)

/-! ## C81: the time in the header -/

/-- C81, full statement: a message delivered in a step says so in its header. -/
def C81_statement : Prop :=
  ∀ (d : Ident) (start : Nat) (hs : List (StepIn Int)), (∀ i (h : i < hs.length), Sound (start + i) hs[i].proj) →
    ∀ (i : Nat) m, (runSingle d start [] hs).1[i]? = some (some m) → m.header.sendTime = start + i

/-- C81 is false: with a delay of 2 or more the header carries the step of the (first) spike. -/
theorem C81_send_time_refuted : ¬ C81_statement := by
  intro h
  have := h ⟨77, 1, 2, true⟩ 10
    [⟨⟨[⟨0, 0, 5, 2, .excitatory⟩], fun n => if n = 0 then [0] else []⟩, [⟨⟨1, 10⟩, [0]⟩]⟩,
      ⟨⟨[⟨0, 0, 5, 2, .excitatory⟩], fun n => if n = 0 then [0] else []⟩, []⟩] (by
      intro i hi s hs
      have hi : i < 2 := hi
      have h64 : two64 = 2 ^ 64 := rfl
      match i, hi with
      | 0, _ => simp at hs; subst hs; simp [two32]; omega
      | 1, _ => simp at hs; subst hs; simp [two32]; omega) 1
    ⟨⟨77, 10⟩, 1, 2, true, [⟨0, 5, .excitatory, 0, 0⟩]⟩ (by decide)
  exact absurd this (by decide)

/-- C81, what holds: the header carries the step of the first spike that caused one of the delivered impacts; so it
is right whenever all delays are 1. -/
theorem C81_send_time_partial (d : Ident) (start : Nat) (hs : List (StepIn F))
    (hsound : ∀ i (h : i < hs.length), Sound (start + i) hs[i].proj) (i : Nat) (m : SynapticImpactMessage F)
    (h : (runSingle d start [] hs).1[i]? = some (some m)) :
    (∃ c cs, (causedAll start (hs.take (i + 1))).filter (fun c => c.due == start + i) = c :: cs ∧
      m.header.sendTime = c.cause) ∧
    ((∀ h ∈ hs, ∀ s ∈ h.proj.synapses, s.delay = 1) → m.header.sendTime = start + i) := by
  have hi : i < hs.length := by
    have hlt := (List.getElem?_eq_some_iff.1 h).1
    rw [runSingle_eq] at hlt
    have hlen' : ∀ (ls : List (List (Caused F))) (t : Nat) (q : Queue F), (runGen (mkSingle d) t q ls).1.length = ls.length := by
      intro ls
      induction ls with
      | nil => intro t q; rfl
      | cons l ls ih => intro t q; simp [runGen, ih]
    rwa [hlen', rawAll_length] at hlt
  have h1 := (C43_no_loss_no_duplication d start hs hsound).1 i hi
  rw [h] at h1
  have h1 := Option.some.inj h1
  have hcases : ∃ c cs, (causedAll start (hs.take (i + 1))).filter (fun c => c.due == start + i) = c :: cs ∧
      m.header.sendTime = c.cause := by
    cases hA : (causedAll start (hs.take (i + 1))).filter (fun c => c.due == start + i) with
    | nil => rw [hA] at h1; cases h1
    | cons c cs =>
      rw [hA] at h1
      exact ⟨c, cs, rfl, by rw [Option.some.inj h1]⟩
  refine ⟨hcases, fun hd => ?_⟩
  obtain ⟨c, cs, hA, hm⟩ := hcases
  have hc : c ∈ (causedAll start (hs.take (i + 1))).filter (fun c => c.due == start + i) := by rw [hA]; simp
  have hdue : c.due = start + i := by simpa using (List.mem_filter.1 hc).2
  have hc := (List.mem_filter.1 hc).1
  have gen : ∀ (l : List (StepIn F)) (t : Nat), (∀ h ∈ l, ∀ s ∈ h.proj.synapses, s.delay = 1) →
      c ∈ causedAll t l → c.due = c.cause := by
    intro l
    induction l with
    | nil => intro t _ h; simp [causedAll] at h
    | cons a l ih =>
      intro t hd h
      simp only [causedAll, List.mem_append] at h
      rcases h with h | h
      · unfold causedBy at h
        obtain ⟨m', _, h⟩ := List.mem_flatMap.1 h
        obtain ⟨n, _, h⟩ := List.mem_flatMap.1 h
        obtain ⟨j, _, h⟩ := List.mem_filterMap.1 h
        cases hj : a.proj.synapses[j]? with
        | none => simp only [hj, Option.map_none] at h; cases h
        | some s =>
          simp only [hj, Option.map_some, Option.some.injEq] at h
          subst h
          have := hd a (by simp) s (List.mem_of_getElem? hj)
          simp [this]
      · exact ih _ (fun h hh => hd h (List.mem_cons_of_mem _ hh)) h
  rw [hm, ← gen _ _ (fun h hh => hd h (List.mem_of_mem_take hh)) hc, hdue]

end Knp.Props
