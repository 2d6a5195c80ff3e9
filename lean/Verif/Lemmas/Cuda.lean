import Verif.Spec.Cuda
import Verif.Lemmas.SystemBoot

/-! # Lemmas: the bus of the device -/

namespace Knp.Cuda
open Knp Knp.Bus Knp.Spec Knp.Neurons

variable {F : Type}

/-! ## Finding a subscription -/

/-- `(k, r)` listens to `s` on the device. -/
def dhears (subs : List Sub) (k : MsgKind) (r s : UID) : Bool :=
  subs.any (fun x => x.kind == k && x.receiver == r && x.senders.contains s)

def Sub.key (s : Sub) : MsgKind × UID := (s.kind, s.receiver)

theorem findThread_spec (subs : List Sub) (k : MsgKind) (r : UID) (order : List Nat) : ∀ out : Nat,
    (order.foldl (findThread subs k r) out = out ∧ ∀ i ∈ order, ∀ s, subs[i]? = some s → s.key ≠ (k, r)) ∨
    ∃ s, subs[order.foldl (findThread subs k r) out]? = some s ∧ s.key = (k, r) := by
  induction order with
  | nil => intro out; exact .inl ⟨rfl, fun i hi => by simp at hi⟩
  | cons i order ih =>
    intro out
    rw [List.foldl_cons]
    rcases ih (findThread subs k r out i) with ⟨h1, h2⟩ | h
    · rw [h1]
      cases hs : subs[i]? with
      | none =>
        have : findThread subs k r out i = out := by unfold findThread; rw [hs]
        left
        refine ⟨this, ?_⟩
        intro j hj
        rcases List.mem_cons.1 hj with rfl | hj
        · intro s hs'; rw [hs] at hs'; cases hs'
        · exact h2 j hj
      | some s =>
        by_cases hk : s.kind = k ∧ s.receiver = r
        · right
          refine ⟨s, ?_, by unfold Sub.key; rw [hk.1, hk.2]⟩
          have : findThread subs k r out i = i := by
            unfold findThread; rw [hs]; simp [hk.1, hk.2]
          rw [this]; exact hs
        · left
          have hne : s.key ≠ (k, r) := by
            intro h; unfold Sub.key at h; exact hk ⟨congrArg Prod.fst h, congrArg Prod.snd h⟩
          refine ⟨?_, ?_⟩
          · unfold findThread; rw [hs]; simp only; rw [if_neg]; simpa using fun a b => hk ⟨a, b⟩
          · intro j hj
            rcases List.mem_cons.1 hj with rfl | hj
            · intro s' hs'; rw [hs] at hs'; cases hs'; exact hne
            · exact h2 j hj
    · exact .inr h

theorem getElem?_unique {subs : List Sub} (hn : (subs.map Sub.key).Nodup) {i j : Nat} {s s' : Sub} (h1 : subs[i]? = some s)
    (h2 : subs[j]? = some s') (h : s.key = s'.key) : i = j := by
  have hi : i < subs.length := (List.getElem?_eq_some_iff.1 h1).1
  have hj : j < subs.length := (List.getElem?_eq_some_iff.1 h2).1
  have e1 : (subs.map Sub.key)[i]? = (subs.map Sub.key)[j]? := by simp [h1, h2, h]
  exact (List.getElem?_inj (by simpa using hi) hn).1 e1

/-- With different keys it does not matter in which order the threads run: at most one of them writes. -/
theorem findKernel_spec {subs : List Sub} (hn : (subs.map Sub.key).Nodup) (k : MsgKind) (r : UID) {order : List Nat}
    (ho : order.Perm (List.range subs.length)) : ∀ i s, subs[i]? = some s → s.key = (k, r) → findKernel subs k r order = i := by
  intro i s hs hk
  have hi : i < subs.length := (List.getElem?_eq_some_iff.1 hs).1
  unfold findKernel
  rw [if_neg (by omega)]
  rcases findThread_spec subs k r order subs.length with ⟨_, h2⟩ | ⟨s', h1, h2⟩
  · exact (h2 i (ho.mem_iff.2 (by simpa using hi)) s hs hk).elim
  · exact getElem?_unique hn h1 hs (h2.trans hk.symm)

theorem findKernel_none {subs : List Sub} (k : MsgKind) (r : UID) {order : List Nat}
    (h : ∀ s ∈ subs, s.key ≠ (k, r)) : findKernel subs k r order = subs.length := by
  unfold findKernel
  split
  · rename_i h0; exact h0.symm
  rcases findThread_spec subs k r order subs.length with ⟨h1, _⟩ | ⟨s', h1, h2⟩
  · exact h1
  · exact (h s' (List.mem_of_getElem? h1) h2).elim

theorem find_any_order {subs : List Sub} (hn : (subs.map Sub.key).Nodup) (k : MsgKind) (r : UID) {order : List Nat}
    (ho : order.Perm (List.range subs.length)) : findKernel subs k r order = findSub subs k r := by
  by_cases h : ∃ s ∈ subs, s.key = (k, r)
  · obtain ⟨s, hs, hk⟩ := h
    obtain ⟨i, hi⟩ := List.mem_iff_getElem?.1 hs
    rw [findKernel_spec hn k r ho i s hi hk, findSub, findKernel_spec hn k r (List.Perm.refl _) i s hi hk]
  · have h' : ∀ s ∈ subs, s.key ≠ (k, r) := fun s hs hk => h ⟨s, hs, hk⟩
    rw [findKernel_none k r h', findSub, findKernel_none k r h']

/-- What `findSub` finds. -/
theorem findSub_cases {subs : List Sub} (hn : (subs.map Sub.key).Nodup) (k : MsgKind) (r : UID) :
    (findSub subs k r = subs.length ∧ ∀ s ∈ subs, s.key ≠ (k, r)) ∨
    ∃ l1 s l2, subs = l1 ++ s :: l2 ∧ s.key = (k, r) ∧ findSub subs k r = l1.length ∧
      (∀ x ∈ l1, x.key ≠ (k, r)) ∧ ∀ x ∈ l2, x.key ≠ (k, r) := by
  by_cases h : ∃ s ∈ subs, s.key = (k, r)
  · obtain ⟨s, hs, hk⟩ := h
    obtain ⟨l1, l2, rfl⟩ := List.append_of_mem hs
    right
    refine ⟨l1, s, l2, rfl, hk, ?_, ?_, ?_⟩
    · exact findKernel_spec hn k r (List.Perm.refl _) l1.length s (by simp) hk
    · intro x hx e
      rw [List.map_append, List.map_cons, List.nodup_append] at hn
      exact hn.2.2 x.key (List.mem_map.2 ⟨x, hx, rfl⟩) s.key (by simp) (e.trans hk.symm)
    · intro x hx e
      rw [List.map_append, List.map_cons, List.nodup_append, List.nodup_cons] at hn
      exact hn.2.1.1 (List.mem_map.2 ⟨x, hx, e.trans hk.symm⟩)
  · have h' : ∀ s ∈ subs, s.key ≠ (k, r) := fun s hs hk => h ⟨s, hs, hk⟩
    exact .inl ⟨findKernel_none k r h', h'⟩

theorem dhears_none {subs : List Sub} {k : MsgKind} {r : UID} (h : ∀ s ∈ subs, s.key ≠ (k, r)) (s : UID) :
    dhears subs k r s = false := by
  unfold dhears
  rw [List.any_eq_false]
  intro x hx
  have := h x hx
  unfold Sub.key at this
  simp only [Bool.and_eq_true, beq_iff_eq]
  rintro ⟨⟨h1, h2⟩, _⟩
  exact this (by rw [h1, h2])

theorem dhears_split {l1 l2 : List Sub} {x : Sub} {k : MsgKind} {r : UID} (hk : x.key = (k, r))
    (h1 : ∀ y ∈ l1, y.key ≠ (k, r)) (h2 : ∀ y ∈ l2, y.key ≠ (k, r)) (s : UID) :
    dhears (l1 ++ x :: l2) k r s = x.senders.contains s := by
  have e1 := dhears_none h1 s
  have e2 := dhears_none h2 s
  unfold dhears at *
  rw [List.any_append, List.any_cons, e1, e2]
  have a : x.kind = k := congrArg Prod.fst hk
  have b : x.receiver = r := congrArg Prod.snd hk
  simp [a, b]

/-- What `unload` gives: what the receiver listens to, in the order in which the threads arrive. -/
theorem unload_eq {subs : List Sub} (hn : (subs.map Sub.key).Nodup) (msgs : List (GMsg F)) (order : List Nat) (k : MsgKind)
    (r : UID) : unload subs msgs order k r = ((orderOf msgs.length order).filterMap (fun i => msgs[i]?)).filter
      (fun m => m.body.kind == k && dhears subs k r m.body.sender) := by
  unfold unload
  rcases findSub_cases hn k r with ⟨h1, h2⟩ | ⟨l1, x, l2, rfl, hk, h1, h2, h3⟩
  · rw [h1, List.getElem?_eq_none (by omega)]
    simp only
    symm
    rw [List.filter_eq_nil_iff]
    intro m _
    rw [dhears_none h2]
    simp
  · rw [h1]
    simp only [List.getElem?_append_right (Nat.le_refl _), Nat.sub_self, List.getElem?_cons_zero]
    apply List.filter_congr
    intro m _
    rw [dhears_split hk h2 h3]
    have a : x.kind = k := congrArg Prod.fst hk
    unfold Sub.mine
    rw [a]

theorem orderOf_perm (n : Nat) (order : List Nat) : (orderOf n order).Perm (List.range n) := by
  unfold orderOf
  split
  · assumption
  · exact List.Perm.refl _

theorem filterMap_range {α : Type} (l : List α) : (List.range l.length).filterMap (fun i => l[i]?) = l := by
  induction l with
  | nil => rfl
  | cons a l ih =>
    rw [List.length_cons, List.range_succ_eq_map, List.filterMap_cons, List.filterMap_map]
    simp only [List.getElem?_cons_zero]
    congr 1

theorem perm_order {α : Type} (l : List α) (order : List Nat) :
    ((orderOf l.length order).filterMap (fun i => l[i]?)).Perm l := by
  have := (orderOf_perm l.length order).filterMap (fun i => l[i]?)
  rwa [filterMap_range] at this

theorem unload_perm {subs : List Sub} (hn : (subs.map Sub.key).Nodup) (msgs : List (GMsg F)) (order : List Nat) (k : MsgKind)
    (r : UID) : (unload subs msgs order k r).Perm (msgs.filter (fun m => m.body.kind == k && dhears subs k r m.body.sender)) := by
  rw [unload_eq hn]
  exact (perm_order msgs order).filter _

/-! ## Subscribing -/

theorem modify_at {α : Type} (f : α → α) (l1 l2 : List α) (x : α) : (l1 ++ x :: l2).modify l1.length f = l1 ++ f x :: l2 := by
  induction l1 with
  | nil => simp
  | cons a l1 ih => simpa using ih

theorem key_addAll (s : Sub) (xs : List UID) : (s.addAll xs).key = s.key := rfl

theorem keys_subscribeGpu {subs : List Sub} (hn : (subs.map Sub.key).Nodup) (k : MsgKind) (r : UID) (xs : List UID) :
    ((subscribeGpu subs k r xs).map Sub.key).Nodup := by
  unfold subscribeGpu
  rcases findSub_cases hn k r with ⟨h1, h2⟩ | ⟨l1, x, l2, rfl, hk, h1, h2, h3⟩
  · simp only
    rw [if_neg (by simp [h1]), List.map_append, List.nodup_append]
    refine ⟨hn, by simp, ?_⟩
    intro a ha b hb hab
    obtain ⟨s, hs, rfl⟩ := List.mem_map.1 ha
    simp only [List.map_cons, List.map_nil, List.mem_singleton] at hb
    exact h2 s hs (hab.trans hb)
  · simp only
    rw [if_pos (by rw [h1]; simp), h1]
    rw [modify_at]
    simp only [List.map_append, List.map_cons, key_addAll]
    simpa using hn

theorem dhears_subscribeGpu {subs : List Sub} (hn : (subs.map Sub.key).Nodup) (k k' : MsgKind) (r r' s : UID) (xs : List UID) :
    dhears (subscribeGpu subs k' r' xs) k r s = (dhears subs k r s || (decide (k' = k ∧ r' = r) && decide (s ∈ xs))) := by
  unfold subscribeGpu
  have hin : ∀ (ys : List UID), (setInsertAll ys xs).contains s = (ys.contains s || decide (s ∈ xs)) := by
    intro ys
    rw [Bool.eq_iff_iff, Bool.or_eq_true, List.contains_iff_mem, mem_setInsertAll, List.contains_iff_mem, decide_eq_true_iff]
  rcases findSub_cases hn k' r' with ⟨h1, h2⟩ | ⟨l1, x, l2, rfl, hk, h1, h2, h3⟩
  · simp only
    rw [if_neg (by simp [h1])]
    unfold dhears
    rw [List.any_append]
    congr 1
    simp only [List.any_cons, List.any_nil, Bool.or_false, Sub.create, hin]
    rw [Bool.eq_iff_iff]
    simp [and_assoc]
  · simp only
    rw [if_pos (by rw [h1]; simp), h1, modify_at]
    unfold dhears
    rw [List.any_append, List.any_append, List.any_cons, List.any_cons]
    have a : x.kind = k' := congrArg Prod.fst hk
    have b : x.receiver = r' := congrArg Prod.snd hk
    simp only [Sub.addAll, hin, a, b]
    rw [Bool.eq_iff_iff]
    simp only [Bool.or_eq_true, Bool.and_eq_true, beq_iff_eq, decide_eq_true_eq]
    tauto

/-- The wiring of `init`. -/
theorem initSubs_spec (projs : List (Proj F)) : ∀ subs : List Sub, (subs.map Sub.key).Nodup →
    ((initSubs projs subs).map Sub.key).Nodup ∧
    (∀ r s, dhears (initSubs projs subs) .impact r s = (dhears subs .impact r s ||
      (decide (r ≠ 0) && projs.any (fun j => j.ident.post == r && j.ident.uid == s)))) ∧
    (∀ r s, dhears (initSubs projs subs) .spike r s = (dhears subs .spike r s ||
      (decide (s ≠ 0) && projs.any (fun j => j.ident.uid == r && j.ident.pre == s)))) := by
  induction projs with
  | nil => intro subs hn; exact ⟨hn, fun _ _ => by simp [initSubs], fun _ _ => by simp [initSubs]⟩
  | cons j js ih =>
    intro subs hn
    generalize hs1 : (if j.ident.pre = 0 then subs else subscribeGpu subs .spike j.ident.uid [j.ident.pre]) = s1
    generalize hs2 : (if j.ident.post = 0 then s1 else subscribeGpu s1 .impact j.ident.post [j.ident.uid]) = s2
    have hcons : initSubs (j :: js) subs = initSubs js s2 := by rw [← hs2, ← hs1]; rfl
    have n1 : (s1.map Sub.key).Nodup := by
      rw [← hs1]; split
      · exact hn
      · exact keys_subscribeGpu hn _ _ _
    have n2 : (s2.map Sub.key).Nodup := by
      rw [← hs2]; split
      · exact n1
      · exact keys_subscribeGpu n1 _ _ _
    have d1 : ∀ k r s, dhears s1 k r s = (dhears subs k r s ||
        (decide (j.ident.pre ≠ 0) && (decide (MsgKind.spike = k ∧ j.ident.uid = r) && decide (s = j.ident.pre)))) := by
      intro k r s
      rw [← hs1]
      by_cases h0 : j.ident.pre = 0
      · simp [h0]
      · rw [if_neg h0, dhears_subscribeGpu hn]; simp [h0]
    have d2 : ∀ k r s, dhears s2 k r s = (dhears s1 k r s ||
        (decide (j.ident.post ≠ 0) && (decide (MsgKind.impact = k ∧ j.ident.post = r) && decide (s = j.ident.uid)))) := by
      intro k r s
      rw [← hs2]
      by_cases h0 : j.ident.post = 0
      · simp [h0]
      · rw [if_neg h0, dhears_subscribeGpu n1]; simp [h0]
    obtain ⟨i1, i2, i3⟩ := ih s2 n2
    rw [hcons]
    refine ⟨i1, fun r s => ?_, fun r s => ?_⟩
    · rw [i2, d2, d1, List.any_cons, Bool.eq_iff_iff]
      simp only [Bool.or_eq_true, Bool.and_eq_true, beq_iff_eq, decide_eq_true_eq, reduceCtorEq, false_and, and_false,
        or_false, true_and]
      constructor
      · rintro ((h | ⟨h1, rfl, rfl⟩) | ⟨h1, h2⟩)
        · exact .inl h
        · exact .inr ⟨h1, .inl ⟨rfl, rfl⟩⟩
        · exact .inr ⟨h1, .inr h2⟩
      · rintro (h | ⟨h1, (⟨rfl, rfl⟩ | h2)⟩)
        · exact .inl (.inl h)
        · exact .inl (.inr ⟨h1, rfl, rfl⟩)
        · exact .inr ⟨h1, h2⟩
    · rw [i3, d2, d1, List.any_cons, Bool.eq_iff_iff]
      simp only [Bool.or_eq_true, Bool.and_eq_true, beq_iff_eq, decide_eq_true_eq, reduceCtorEq, false_and, and_false,
        or_false, true_and]
      constructor
      · rintro ((h | ⟨h1, rfl, rfl⟩) | ⟨h1, h2⟩)
        · exact .inl h
        · exact .inr ⟨h1, .inl ⟨rfl, rfl⟩⟩
        · exact .inr ⟨h1, .inr h2⟩
      · rintro (h | ⟨h1, (⟨rfl, rfl⟩ | h2)⟩)
        · exact .inl (.inl h)
        · exact .inl (.inr ⟨h1, rfl, rfl⟩)
        · exact .inr ⟨h1, h2⟩

/-! ## sync_with_host -/

/-- The keys of the endpoint's map. -/
def ekey (s : Subscr F) : MsgKind × UID := (s.kind, s.receiver)

theorem ekeys_subscribe {e : Endpoint F} (hn : (e.subs.map ekey).Nodup) (k : MsgKind) (r : UID) (xs : List UID) :
    ((e.subscribe k r xs).subs.map ekey).Nodup := by
  unfold Endpoint.subscribe
  simp only
  split
  · simp only [Endpoint.modifySub, List.map_map]
    have : (ekey ∘ fun s : Subscr F => if s.hasKey k r = true then (s.addSenders xs).1 else s) = ekey := by
      funext s
      simp only [Function.comp]
      split <;> rfl
    rw [this]; exact hn
  · rename_i h
    simp only [List.map_append, List.map_cons, List.map_nil]
    rw [List.nodup_append]
    refine ⟨hn, by simp, ?_⟩
    intro a ha b hb hab
    obtain ⟨s, hs, rfl⟩ := List.mem_map.1 ha
    simp only [List.mem_singleton] at hb
    rw [hb] at hab
    unfold Endpoint.findSub at h
    rw [List.find?_eq_none] at h
    have := h s hs
    simp only [Subscr.hasKey, Bool.and_eq_true, beq_iff_eq] at this
    exact this ⟨congrArg Prod.fst hab, congrArg Prod.snd hab⟩

theorem hearsE_any {e : Endpoint F} (hn : (e.subs.map ekey).Nodup) (k : MsgKind) (r s : UID) :
    Sys.hearsE e k r s = e.subs.any (fun x => x.kind == k && x.receiver == r && x.senders.contains s) := by
  unfold Sys.hearsE Endpoint.findSub
  generalize hl : e.subs = l at hn
  clear hl
  induction l with
  | nil => rfl
  | cons a l ih =>
    rw [List.map_cons, List.nodup_cons] at hn
    rw [List.find?_cons, List.any_cons]
    cases hk : a.hasKey k r with
    | false =>
      simp only [Subscr.hasKey] at hk
      simp only [hk, Bool.false_and, Bool.false_or]
      exact ih hn.2
    | true =>
      simp only [Subscr.hasKey] at hk
      simp only [hk, Bool.true_and, Option.map_some, Option.getD_some]
      have : l.any (fun x => x.kind == k && x.receiver == r && x.senders.contains s) = false := by
        rw [List.any_eq_false]
        intro x hx
        simp only [Bool.and_eq_true, beq_iff_eq] at hk ⊢
        rintro ⟨⟨h1, h2⟩, _⟩
        exact hn.1 (List.mem_map.2 ⟨x, hx, by unfold ekey; rw [h1, h2, hk.1, hk.2]⟩)
      rw [this, Bool.or_false]

theorem senders_subscribe (e : Endpoint F) (k : MsgKind) (r : UID) (xs : List UID) :
    (e.subscribe k r xs).senders = setInsertAll e.senders xs := by
  unfold Endpoint.subscribe
  simp only
  split <;> rfl

theorem sync_fold (l : List (Subscr F)) : ∀ (subs : List Sub) (e : Endpoint F), (subs.map Sub.key).Nodup → Sys.Quiet e →
    (e.subs.map ekey).Nodup → (∀ s ∈ l, ∀ u ∈ s.senders, Sys.hearsE e s.kind s.receiver u = true) →
    (∀ s ∈ l, ∀ u ∈ s.senders, u ∈ e.senders) →
    let r := l.foldl (fun a s => subscribeBoth s.kind s.receiver s.senders a) (subs, e)
    (r.1.map Sub.key).Nodup ∧ Sys.Quiet r.2 ∧ (r.2.subs.map ekey).Nodup ∧ (∀ k r' s, Sys.hearsE r.2 k r' s = Sys.hearsE e k r' s) ∧
    (∀ k r' s, dhears r.1 k r' s = (dhears subs k r' s ||
      l.any (fun x => x.kind == k && x.receiver == r' && x.senders.contains s))) ∧
    (∀ u, u ∈ r.2.senders ↔ u ∈ e.senders) := by
  induction l with
  | nil => intro subs e h1 h2 h3 _ _; exact ⟨h1, h2, h3, fun _ _ _ => rfl, fun _ _ _ => by simp, fun _ => Iff.rfl⟩
  | cons a l ih =>
    intro subs e h1 h2 h3 h4 h5
    have hh : ∀ k r' s, Sys.hearsE (e.subscribe a.kind a.receiver a.senders) k r' s = Sys.hearsE e k r' s := by
      intro k r' s
      rw [Sys.hears_subscribe, Bool.eq_iff_iff]
      simp only [Bool.or_eq_true, Bool.and_eq_true, decide_eq_true_eq]
      constructor
      · rintro (h | ⟨⟨rfl, rfl⟩, hs⟩)
        · exact h
        · exact h4 a (by simp) s hs
      · exact .inl
    have hu : ∀ u, u ∈ (e.subscribe a.kind a.receiver a.senders).senders ↔ u ∈ e.senders := by
      intro u
      rw [senders_subscribe, mem_setInsertAll]
      constructor
      · rintro (h | h)
        · exact h
        · exact h5 a (by simp) u h
      · exact .inl
    obtain ⟨i1, i2, i3, i4, i5, i6⟩ := ih (subscribeGpu subs a.kind a.receiver a.senders)
      (e.subscribe a.kind a.receiver a.senders) (keys_subscribeGpu h1 _ _ _) (Sys.quiet_subscribe h2 _ _ _)
      (ekeys_subscribe h3 _ _ _) (fun s hs u hu' => by rw [hh]; exact h4 s (by simp [hs]) u hu')
      (fun s hs u hu' => by rw [hu]; exact h5 s (by simp [hs]) u hu')
    refine ⟨i1, i2, i3, fun k r' s => by rw [List.foldl_cons]; exact (i4 k r' s).trans (hh k r' s), fun k r' s => ?_,
      fun u => by rw [List.foldl_cons]; exact (i6 u).trans (hu u)⟩
    rw [List.foldl_cons]
    refine (i5 k r' s).trans ?_
    rw [dhears_subscribeGpu h1, List.any_cons, Bool.or_assoc]
    congr 2
    rw [Bool.eq_iff_iff]
    simp [and_assoc]

theorem any_perm {α : Type} {l l' : List α} (h : l.Perm l') (p : α → Bool) : l.any p = l'.any p := by
  rw [Bool.eq_iff_iff, List.any_eq_true, List.any_eq_true]
  constructor
  · rintro ⟨x, hx, hp⟩; exact ⟨x, h.mem_iff.1 hx, hp⟩
  · rintro ⟨x, hx, hp⟩; exact ⟨x, h.mem_iff.2 hx, hp⟩

theorem sync_spec (order : List Nat) {subs : List Sub} {e : Endpoint F} (h1 : (subs.map Sub.key).Nodup) (h2 : Sys.Quiet e)
    (h3 : (e.subs.map ekey).Nodup) :
    ((syncWithHost order subs e).1.map Sub.key).Nodup ∧ Sys.Quiet (syncWithHost order subs e).2 ∧
    ((syncWithHost order subs e).2.subs.map ekey).Nodup ∧
    (∀ k r s, Sys.hearsE (syncWithHost order subs e).2 k r s = Sys.hearsE e k r s) ∧
    (∀ k r s, dhears (syncWithHost order subs e).1 k r s = (dhears subs k r s || Sys.hearsE e k r s)) ∧
    (∀ u, u ∈ (syncWithHost order subs e).2.senders ↔ u ∈ e.senders) := by
  have hp := perm_order e.subs order
  have hm : ∀ s ∈ (orderOf e.subs.length order).filterMap (fun i => e.subs[i]?), s ∈ e.subs := fun s hs => hp.mem_iff.1 hs
  obtain ⟨i1, i2, i3, i4, i5, i6⟩ := sync_fold ((orderOf e.subs.length order).filterMap (fun i => e.subs[i]?)) subs e h1 h2 h3
    (by
      intro s hs u hu
      rw [hearsE_any h3, List.any_eq_true]
      exact ⟨s, hm s hs, by simpa using hu⟩)
    (fun s hs u hu => h2.covered s (hm s hs) u hu)
  refine ⟨i1, i2, i3, i4, fun k r s => ?_, i6⟩
  rw [hearsE_any h3, ← any_perm hp]
  exact i5 k r s

end Knp.Cuda
