import Verif.Lemmas.ProgramLearn
import Mathlib.Data.List.Induction

/-! # Lemmas: which messages are waiting, by sender -/

namespace Knp.Prog
open Knp Knp.Bus Knp.Spec Knp.Sys Knp.Learn

variable {F : Type}

/-- A run that is empty or has just finished an iteration. -/
def Fresh (a : List (Item F)) : Prop := a = [] ∨ ∃ a' i, a = a' ++ [.iter i]

theorem split_last (tr : List (Item F)) : ∃ a mid, tr = a ++ mid ∧ iters mid = [] ∧ Fresh a := by
  induction tr using List.reverseRecOn with
  | nil => exact ⟨[], [], rfl, rfl, Or.inl rfl⟩
  | append_singleton tr it ih =>
    obtain ⟨a, mid, rfl, h1, h2⟩ := ih
    cases it with
    | iter i => exact ⟨a ++ mid ++ [.iter i], [], by simp, rfl, Or.inr ⟨_, _, rfl⟩⟩
    | halt t fed => exact ⟨a, mid ++ [.halt t fed], by simp, by rw [iters_halt, h1], h2⟩
    | read n x y got => exact ⟨a, mid ++ [.read n x y got], by simp, by rw [iters_read, h1], h2⟩

theorem explained_prefix {L : Layout} {a b : List (Item F)} (h : Explained L [] (a ++ b)) : Explained L [] a := by
  intro x it y hxy
  exact h x it (y ++ b) (by rw [hxy]; simp)

theorem waiting_fresh (L : Layout) {a : List (Item F)} (h : Fresh a) (k : Nat) (u : UID) (hk : L.inputs[k]? = some u) :
    (waiting L a).channels[k]? = some [] := by
  rcases h with rfl | ⟨a', i, rfl⟩
  · simp only [waiting, Waiting.none, List.foldl_nil, List.getElem?_map, hk, Option.map_some]
  · rw [waiting_snoc]; simp only [Waiting.after, List.getElem?_map, hk, Option.map_some]

theorem zip_at {α β γ : Type} {f : α → β → γ} {l : List α} {l' : List β} {k : Nat} {a : α} {b : β} (h : l[k]? = some a)
    (h' : l'[k]? = some b) : (List.zipWith f l l')[k]? = some (f a b) := by
  rw [List.getElem?_zipWith, h, h']

/-- What input channel `k` has waiting. -/
theorem waiting_channel (L : Layout) {a : List (Item F)} (ha : Fresh a) (k : Nat) (u : UID) (hk : L.inputs[k]? = some u)
    (mid : List (Item F)) (hm : iters mid = []) (he : Explained L [] (a ++ mid)) :
    (waiting L (a ++ mid)).channels[k]? = some (mid.flatMap (fedIn u k)) := by
  induction mid using List.reverseRecOn with
  | nil => rw [List.append_nil]; exact waiting_fresh L ha k u hk
  | append_singleton mid it ih =>
    rw [← List.append_assoc] at he ⊢
    have hok := he (a ++ mid) it [] rfl
    rw [List.nil_append] at hok
    rw [iters_append] at hm
    obtain ⟨hm1, hm2⟩ := List.append_eq_nil_iff.1 hm
    have hi := ih hm1 (explained_prefix he)
    rw [waiting_snoc, List.flatMap_append]
    cases it with
    | iter i => simp [iters] at hm2
    | halt t fed =>
      have hl : k < fed.length := by
        rw [hok.2]
        rcases Nat.lt_or_ge k L.inputs.length with h | h
        · exact h
        · rw [List.getElem?_eq_none h] at hk; cases hk
      simp only [Waiting.after]
      rw [zip_at hi (b := message u t fed[k]) (by
        unfold fedBy
        rw [zip_at hk (b := fed[k]) (List.getElem?_eq_getElem hl)])]
      simp [fedIn, List.getD, List.getElem?_eq_getElem hl]
    | read n x y got => simp [Waiting.after, hi, fedIn]

/-- What the handlers have waiting. -/
theorem waiting_handlers (L : Layout) {a : List (Item F)} {i : Iter F} (mid : List (Item F)) (hm : iters mid = []) :
    (waiting L (a ++ .iter i :: mid)).handlers =
      List.zipWith (fun (h : Handler) x => message h.uid (i.time + 1) x.2) L.handlers i.handled := by
  have hc : a ++ .iter i :: mid = (a ++ [.iter i]) ++ mid := by simp
  rw [hc]
  induction mid using List.reverseRecOn with
  | nil => rw [List.append_nil, waiting_snoc]; rfl
  | append_singleton mid it ih =>
    rw [iters_append] at hm
    obtain ⟨hm1, hm2⟩ := List.append_eq_nil_iff.1 hm
    rw [← List.append_assoc, waiting_snoc, ← ih hm1 (by simp)]
    cases it with
    | iter i => simp [iters] at hm2
    | halt t fed => rfl
    | read n x y got => rfl

theorem waiting_handlers_first (L : Layout) (mid : List (Item F)) (hm : iters mid = []) :
    (waiting L mid).handlers = L.handlers.map (fun _ => []) := by
  induction mid using List.reverseRecOn with
  | nil => rfl
  | append_singleton mid it ih =>
    rw [iters_append] at hm
    obtain ⟨hm1, hm2⟩ := List.append_eq_nil_iff.1 hm
    rw [waiting_snoc, ← ih hm1]
    cases it with
    | iter i => simp [iters] at hm2
    | halt t fed => rfl
    | read n x y got => rfl

/-- Lists by sender. -/
def By (us : List UID) (ls : List (List SpikeMessage)) : Prop :=
  ls.length = us.length ∧ ∀ (k : Nat) (u : UID) (l : List SpikeMessage), us[k]? = some u → ls[k]? = some l →
    ∀ x ∈ l, x.header.senderUid = u

theorem By.tail {u : UID} {us : List UID} {l : List SpikeMessage} {ls : List (List SpikeMessage)} (h : By (u :: us) (l :: ls)) :
    By us ls := ⟨by simpa using h.1, fun k v l' h1 h2 => h.2 (k + 1) v l' (by simpa using h1) (by simpa using h2)⟩

theorem by_none : ∀ {us : List UID} {ls : List (List SpikeMessage)}, By us ls → ∀ u, u ∉ us →
    ls.flatten.filter (fun x => decide (x.header.senderUid = u)) = [] := by
  intro us
  induction us with
  | nil =>
    intro ls h u _
    have := h.1
    simp only [List.length_nil, List.length_eq_zero_iff] at this
    rw [this]; rfl
  | cons v us ih =>
    intro ls h u hu
    cases ls with
    | nil => rfl
    | cons l ls =>
      rw [List.flatten_cons, List.filter_append, ih h.tail u (fun h' => hu (List.mem_cons_of_mem _ h')), List.append_nil]
      rw [List.filter_eq_nil_iff]
      intro x hx
      have := h.2 0 v l rfl rfl x hx
      rw [this]
      simp only [decide_eq_true_eq]
      rintro rfl
      exact hu (by simp)

theorem by_one : ∀ {us : List UID} {ls : List (List SpikeMessage)}, By us ls → us.Nodup → ∀ (k : Nat) (u : UID)
    (l : List SpikeMessage), us[k]? = some u → ls[k]? = some l → ls.flatten.filter (fun x => decide (x.header.senderUid = u)) = l := by
  intro us
  induction us with
  | nil => intro ls h _ k u l hk; simp at hk
  | cons v us ih =>
    intro ls h hn k u l hk hl
    rw [List.nodup_cons] at hn
    cases ls with
    | nil => simp at hl
    | cons l0 ls =>
      rw [List.flatten_cons, List.filter_append]
      cases k with
      | zero =>
        simp only [List.getElem?_cons_zero, Option.some.injEq] at hk hl
        subst hk hl
        rw [by_none h.tail _ hn.1, List.append_nil, List.filter_eq_self]
        intro x hx
        simpa using h.2 0 v l0 rfl rfl x hx
      | succ k =>
        simp only [List.getElem?_cons_succ] at hk hl
        rw [ih h.tail hn.2 k u l hk hl]
        have : l0.filter (fun x => decide (x.header.senderUid = u)) = [] := by
          rw [List.filter_eq_nil_iff]
          intro x hx
          rw [h.2 0 v l0 rfl rfl x hx]
          simp only [decide_eq_true_eq]
          rintro rfl
          exact hn.1 (List.mem_of_getElem? hk)
        rw [this, List.nil_append]

/-- The messages of the channels that go into iteration `i`. -/
theorem into_channels {L : Layout} {a mid b : List (Item F)} {i : Iter F} (ha : Fresh a) (hm : iters mid = [])
    (he : Explained L [] (a ++ mid ++ .iter i :: b)) :
    By L.inputs (List.zipWith (· ++ ·) (waiting L (a ++ mid)).channels (fedBy L i.time i.fed)) ∧
    ∀ (k : Nat) (u : UID), L.inputs[k]? = some u →
      (List.zipWith (· ++ ·) (waiting L (a ++ mid)).channels (fedBy L i.time i.fed))[k]? =
        some ((mid ++ [Item.iter i]).flatMap (fedIn u k)) := by
  have hok := he (a ++ mid) (.iter i) b rfl
  rw [List.nil_append] at hok
  have hfl : i.fed.length = L.inputs.length := hok.2.1
  have hp : Explained L [] (a ++ mid) := explained_prefix he
  have key : ∀ (k : Nat) (u : UID), L.inputs[k]? = some u →
      (List.zipWith (· ++ ·) (waiting L (a ++ mid)).channels (fedBy L i.time i.fed))[k]? =
        some ((mid ++ [Item.iter i]).flatMap (fedIn u k)) := by
    intro k u hk
    have hl : k < i.fed.length := by
      rw [hfl]
      rcases Nat.lt_or_ge k L.inputs.length with h | h
      · exact h
      · rw [List.getElem?_eq_none h] at hk; cases hk
    rw [zip_at (waiting_channel L ha k u hk mid hm hp) (b := message u i.time i.fed[k]) (by
      unfold fedBy
      rw [zip_at hk (b := i.fed[k]) (List.getElem?_eq_getElem hl)]), List.flatMap_append]
    simp [fedIn, List.getD, List.getElem?_eq_getElem hl]
  have hbt : ∀ (k : Nat) (u : UID) (x : SpikeMessage), ∀ it : Item F, x ∈ fedIn u k it → x.header.senderUid = u := by
    intro k u x it hx
    cases it with
    | iter i => rw [message_stamp x hx]
    | halt t fed => rw [message_stamp x hx]
    | read _ _ _ _ => simp [fedIn] at hx
  refine ⟨⟨?_, ?_⟩, key⟩
  · have h2 : (fedBy L i.time i.fed).length = L.inputs.length := by unfold fedBy; rw [zipWith_length _ _ _ hfl]
    have h1 : L.inputs.length ≤ (waiting L (a ++ mid)).channels.length := by
      rcases Nat.lt_or_ge (waiting L (a ++ mid)).channels.length L.inputs.length with h | h
      · have := waiting_channel L ha _ _ (List.getElem?_eq_getElem h) mid hm hp
        rw [List.getElem?_eq_none (Nat.le_refl _)] at this
        cases this
      · exact h
    rw [List.length_zipWith, h2]; omega
  · intro k u l hk hl x hx
    rw [key k u hk, Option.some.injEq] at hl
    subst hl
    obtain ⟨it, _, h⟩ := List.mem_flatMap.1 hx
    exact hbt k u x it h

/-- The messages of the handlers that go into the iteration after iteration `i`. -/
theorem into_handlers {L : Layout} {a mid : List (Item F)} {i : Iter F} (hm : iters mid = [])
    (hl : i.handled.length = L.handlers.length) :
    By (L.handlers.map (·.uid)) (waiting L (a ++ .iter i :: mid)).handlers ∧
    ∀ (n : Nat) (d : Handler) (x : List SpikeMessage × List Nat), L.handlers[n]? = some d → i.handled[n]? = some x →
      (waiting L (a ++ .iter i :: mid)).handlers[n]? = some (message d.uid (i.time + 1) x.2) := by
  rw [waiting_handlers L mid hm]
  refine ⟨⟨by rw [List.length_zipWith, List.length_map]; omega, ?_⟩, fun n d x h1 h2 => zip_at h1 h2⟩
  intro k u l hk hl' x hx
  rw [List.getElem?_map] at hk
  cases hd : L.handlers[k]? with
  | none => rw [hd] at hk; cases hk
  | some d =>
    rw [hd] at hk
    simp only [Option.map_some, Option.some.injEq] at hk
    cases hy : i.handled[k]? with
    | none => rw [List.getElem?_zipWith, hd, hy] at hl'; cases hl'
    | some y =>
      rw [zip_at hd hy, Option.some.injEq] at hl'
      subst hl'
      rw [message_stamp x hx]
      exact hk

theorem into_handlers_first {L : Layout} {mid : List (Item F)} (hm : iters mid = []) :
    (waiting L mid).handlers.flatten = [] := by
  rw [waiting_handlers_first L mid hm]
  generalize L.handlers = hs
  induction hs with
  | nil => rfl
  | cons x hs ih => simp

/-! ## Runs whose ends feed nothing -/

theorem waiting_len {L : Layout} (tr : List (Item F)) (he : Explained L [] tr) : (waiting L tr).channels.length = L.inputs.length := by
  induction tr using List.reverseRecOn with
  | nil => simp [waiting, Waiting.none]
  | append_singleton tr it ih =>
    have hi := ih (explained_prefix he)
    have hok := he tr it [] rfl
    rw [List.nil_append] at hok
    rw [waiting_snoc]
    cases it with
    | iter i => simp [Waiting.after]
    | halt t fed =>
      simp only [Waiting.after]
      rw [List.length_zipWith, hi]
      unfold fedBy
      rw [zipWith_length _ _ _ hok.2]
      omega
    | read n x y got => exact hi

theorem zip_nil {α : Type} : ∀ (l : List (List α)) (e : List (List α)), e.length = l.length → (∀ x ∈ e, x = []) →
    List.zipWith (· ++ ·) l e = l := by
  intro l
  induction l with
  | nil => intro e _ _; simp
  | cons a l ih =>
    intro e he hz
    cases e with
    | nil => simp at he
    | cons b e =>
      rw [List.zipWith_cons_cons, ih e (by simpa using he) (fun x hx => hz x (List.mem_cons_of_mem _ hx)), hz b (by simp),
        List.append_nil]

theorem waiting_quiet {L : Layout} (tr : List (Item F)) (he : Explained L [] tr)
    (hq : ∀ t fed, Item.halt t fed ∈ tr → ∀ g ∈ fed, g = []) : waiting L tr = waiting L ((iters tr).map .iter) := by
  induction tr using List.reverseRecOn with
  | nil => rfl
  | append_singleton tr it ih =>
    have hi := ih (explained_prefix he) (fun t fed h => hq t fed (List.mem_append_left _ h))
    have hok := he tr it [] rfl
    rw [List.nil_append] at hok
    rw [waiting_snoc]
    cases it with
    | iter i => rw [iters_iter, List.map_append, List.map_cons, List.map_nil, waiting_snoc]; rfl
    | halt t fed =>
      rw [iters_halt, ← hi]
      simp only [Waiting.after]
      rw [zip_nil]
      · rw [waiting_len tr (explained_prefix he)]; unfold fedBy; rw [zipWith_length _ _ _ hok.2]
      · intro l hl
        unfold fedBy at hl
        obtain ⟨u, _, g, hg, rfl⟩ := mem_zipWith hl
        rw [hq t fed (by simp) g hg]
        rfl
    | read n x y got => rw [iters_read, ← hi]; rfl

theorem externals_quiet {L : Layout} (tr : List (Item F)) (he : Explained L [] tr)
    (hq : ∀ t fed, Item.halt t fed ∈ tr → ∀ g ∈ fed, g = []) : externals L tr = externals L ((iters tr).map .iter) := by
  induction tr using List.reverseRecOn with
  | nil => rfl
  | append_singleton tr it ih =>
    have hq' := fun t fed (h : Item.halt t fed ∈ tr) => hq t fed (List.mem_append_left _ h)
    have hi := ih (explained_prefix he) hq'
    cases it with
    | iter i =>
      rw [externals_iter, iters_iter, List.map_append, List.map_cons, List.map_nil, externals_iter, hi]
      unfold external
      rw [waiting_quiet tr (explained_prefix he) hq']
    | halt t fed => rw [externals_halt, iters_halt, hi]
    | read n x y got => rw [externals_read, iters_read, hi]

theorem externals_same {L : Layout} : ∀ (is is' : List (Iter F)) (b b' : List (Item F)), waiting L b = waiting L b' →
    is.map (fun i => (i.time, i.fed, i.handled.map (·.2))) = is'.map (fun i => (i.time, i.fed, i.handled.map (·.2))) →
    externalsFrom L b (is.map .iter) = externalsFrom L b' (is'.map .iter) := by
  intro is
  induction is with
  | nil =>
    intro is' b b' _ h
    cases is' with
    | nil => rfl
    | cons i' is' => simp at h
  | cons i is ih =>
    intro is' b b' hw h
    cases is' with
    | nil => simp at h
    | cons i' is' =>
      simp only [List.map_cons, List.cons.injEq, Prod.mk.injEq] at h
      obtain ⟨⟨h1, h2, h3⟩, h4⟩ := h
      simp only [List.map_cons, externalsFrom]
      have hh : ∀ (x : Iter F), List.zipWith (fun (d : Handler) y => message d.uid (x.time + 1) y.2) L.handlers x.handled =
          List.zipWith (fun (d : Handler) y => message d.uid (x.time + 1) y) L.handlers (x.handled.map (·.2)) := by
        intro x; rw [List.zipWith_map_right]
      congr 1
      · unfold external Waiting.into; rw [hw, h1, h2]
      · apply ih _ _ _ _ h4
        rw [waiting_snoc, waiting_snoc]
        simp only [Waiting.after, Waiting.mk.injEq, true_and]
        rw [hh, hh, h1, h3]

theorem times_of {L : Layout} (tr : List (Item F)) (he : Explained L [] tr) :
    (iters tr).map (·.time) = List.range (iters tr).length := by
  induction tr using List.reverseRecOn with
  | nil => rfl
  | append_singleton tr it ih =>
    have hi := ih (explained_prefix he)
    have hok := he tr it [] rfl
    rw [List.nil_append] at hok
    cases it with
    | iter i =>
      rw [iters_iter, List.map_append, hi, List.length_append, List.length_singleton, List.range_succ]
      simp [hok.1]
    | halt t fed => rw [iters_halt]; exact hi
    | read n x y got => rw [iters_read]; exact hi

end Knp.Prog
