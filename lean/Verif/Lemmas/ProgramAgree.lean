import Verif.Spec.ProgramAgree
import Verif.Lemmas.ProgramUser
import Verif.Lemmas.ProgramRun

/-! # Lemmas: comparing runs of programs -/

namespace Knp.Prog
open Knp Knp.Bus Knp.Spec Knp.Sys Knp.Learn Knp.Props

variable {σ F : Type}

theorem forall2_filter {α β : Type} {R : α → β → Prop} (p : α → Bool) (q : β → Bool) {l : List α} {l' : List β}
    (h : List.Forall₂ R l l') (hpq : ∀ x y, R x y → p x = q y) : List.Forall₂ R (l.filter p) (l'.filter q) := by
  induction h with
  | nil => exact .nil
  | @cons a b l l' hab hl ih =>
    have e := hpq a b hab
    cases hp : p a with
    | true =>
      rw [List.filter_cons_of_pos hp, List.filter_cons_of_pos (by rw [← e]; exact hp)]
      exact .cons hab ih
    | false =>
      rw [List.filter_cons_of_neg (by simp [hp]), List.filter_cons_of_neg (by simp [← e, hp])]
      exact ih

theorem forall2_append {α β : Type} {R : α → β → Prop} {l m : List α} {l' m' : List β} (h : List.Forall₂ R l l')
    (h2 : List.Forall₂ R m m') : List.Forall₂ R (l ++ m) (l' ++ m') := by
  induction h with
  | nil => exact h2
  | cons hab _ ih => exact .cons hab ih

theorem forall2_map {α β γ δ : Type} {R : α → β → Prop} {S : γ → δ → Prop} {f : α → γ} {g : β → δ} {l : List α} {l' : List β}
    (h : List.Forall₂ R l l') (hs : ∀ x y, R x y → S (f x) (g y)) : List.Forall₂ S (l.map f) (l'.map g) := by
  induction h with
  | nil => exact .nil
  | cons hab _ ih => exact .cons (hs _ _ hab) ih

theorem forall2_same {α : Type} {R : α → α → Prop} (hr : ∀ x, R x x) (l : List α) : List.Forall₂ R l l := by
  induction l with
  | nil => exact .nil
  | cons x l ih => exact .cons (hr x) ih

theorem forall2_maps {α γ δ : Type} {S : γ → δ → Prop} {f : α → γ} {g : α → δ} (l : List α) (hs : ∀ x, S (f x) (g x)) :
    List.Forall₂ S (l.map f) (l.map g) := by
  induction l with
  | nil => exact .nil
  | cons x l ih => exact .cons (hs x) ih

theorem forall2_getD {α β : Type} {R : α → β → Prop} {l : List α} {l' : List β} (h : List.Forall₂ R l l') {d : α} {d' : β}
    (hd : R d d') : ∀ k, R (l.getD k d) (l'.getD k d') := by
  induction h with
  | nil => intro k; exact hd
  | cons hab _ ih =>
    intro k
    cases k with
    | zero => exact hab
    | succ k => exact ih k

theorem forall2_get {α β : Type} {R : α → β → Prop} {l : List α} {l' : List β} (h : List.Forall₂ R l l') :
    ∀ (k : Nat) (x : α) (y : β), l[k]? = some x → l'[k]? = some y → R x y := by
  induction h with
  | nil => intro k x y hx; simp at hx
  | cons hab _ ih =>
    intro k x y hx hy
    cases k with
    | zero =>
      simp only [List.getElem?_cons_zero, Option.some.injEq] at hx hy
      rw [← hx, ← hy]; exact hab
    | succ k =>
      simp only [List.getElem?_cons_succ] at hx hy
      exact ih k x y hx hy

theorem sameSpike_refl (x : SpikeMessage) : SameSpikeMsg x x := ⟨rfl, List.Perm.refl _⟩
theorem sameImpact_refl (x : SynapticImpactMessage F) : SameImpactMsg x x := ⟨rfl, rfl, List.Perm.refl _⟩

theorem sameMsg_kind {x y : Message F} (h : SameMsg x y) : x.kind = y.kind ∧ x.sender = y.sender := by
  cases x <;> cases y
  · exact ⟨rfl, congrArg MessageHeader.senderUid h.1⟩
  · exact h.elim
  · exact h.elim
  · exact ⟨rfl, congrArg MessageHeader.senderUid h.1⟩

theorem zipWith_answers (L : List Handler) (t : Nat) (x : List (List SpikeMessage × List Nat)) :
    List.zipWith (fun (h : Handler) y => message h.uid t y.2) L x = List.zipWith (fun (h : Handler) y => message h.uid t y) L (x.map (·.2)) := by
  rw [List.zipWith_map_right]

theorem after_same {L : Layout} {w : Waiting} {x y : Item F} (h : SameItem x y) : w.after L x = w.after L y := by
  cases x <;> cases y <;> try exact h.elim
  · simp only [Waiting.after]
    have h' : SameIter _ _ := h
    rw [zipWith_answers, zipWith_answers, h'.answers, h'.time]
  · simp only [Waiting.after]
    have h' : _ ∧ _ := h
    rw [h'.1, h'.2]
  · rfl

theorem waiting_same {L : Layout} {a a' : List (Item F)} (h : List.Forall₂ SameItem a a') : waiting L a = waiting L a' := by
  unfold waiting
  generalize Waiting.none L = w
  induction h generalizing w with
  | nil => rfl
  | cons hab _ ih => rw [List.foldl_cons, List.foldl_cons, after_same hab, ih]

theorem external_same {L : Layout} {a a' : List (Item F)} (h : List.Forall₂ SameItem a a') {i i' : Iter F} (ht : i.time = i'.time)
    (hf : i.fed = i'.fed) : external L a i = external L a' i' := by
  unfold external Waiting.into
  rw [waiting_same h, ht, hf]

theorem externalsFrom_same {L : Layout} {b b' : List (Item F)} (h : List.Forall₂ SameItem b b') : ∀ {a a' : List (Item F)},
    List.Forall₂ SameItem a a' → externalsFrom L a b = externalsFrom L a' b' := by
  induction h with
  | nil => intro a a' _; rfl
  | @cons x y b b' hxy hb ih =>
    intro a a' ha
    have hn : List.Forall₂ SameItem (a ++ [x]) (a' ++ [y]) := forall2_append ha (.cons hxy .nil)
    have := ih hn
    cases x <;> cases y <;> try exact hxy.elim
    · have h' : SameIter _ _ := hxy
      simp only [externalsFrom]
      rw [this, external_same ha h'.time h'.fed]
    · exact this
    · exact this

theorem externals_same_trace {L : Layout} {a a' : List (Item F)} (h : List.Forall₂ SameItem a a') : externals L a = externals L a' :=
  externalsFrom_same h .nil

theorem spikesDuring_same {L : Layout} {a a' : List (Item F)} (h : List.Forall₂ SameItem a a') {i i' : Iter F} (ht : i.time = i'.time)
    (hf : i.fed = i'.fed) (ho : SameStep i.out i'.out) : List.Forall₂ SameSpikeMsg (spikesDuring L a i) (spikesDuring L a' i') := by
  unfold spikesDuring
  rw [external_same h ht hf]
  exact forall2_append ho.spikes (forall2_same sameSpike_refl _)

theorem busDuring_same {L : Layout} {a a' : List (Item F)} (h : List.Forall₂ SameItem a a') {i i' : Iter F} (ht : i.time = i'.time)
    (hf : i.fed = i'.fed) (ho : SameStep i.out i'.out) : List.Forall₂ SameMsg (busDuring L a i) (busDuring L a' i') := by
  unfold busDuring
  exact forall2_append (forall2_map ho.impacts (fun _ _ h => h)) (forall2_map (spikesDuring_same h ht hf ho) (fun _ _ h => h))

theorem bufferFrom_same {L : Layout} {n : Nat} {xs : List UID} {b b' : List (Item F)} (h : List.Forall₂ SameItem b b') :
    ∀ {a a' : List (Item F)} {buf buf' : List SpikeMessage}, List.Forall₂ SameItem a a' → List.Forall₂ SameSpikeMsg buf buf' →
    List.Forall₂ SameSpikeMsg (bufferFrom L n xs a buf b) (bufferFrom L n xs a' buf' b') := by
  induction h with
  | nil => intro a a' buf buf' _ hb; exact hb
  | @cons x y b b' hxy hb ih =>
    intro a a' buf buf' ha hbuf
    have hn : List.Forall₂ SameItem (a ++ [x]) (a' ++ [y]) := forall2_append ha (.cons hxy .nil)
    refine ih hn ?_
    cases x <;> cases y <;> try exact hxy.elim
    · have h' : SameIter _ _ := hxy
      simp only [bufferAfter]
      refine forall2_append hbuf (forall2_filter _ _ (spikesDuring_same ha h'.time h'.fed h'.out) ?_)
      intro x y hxy
      rw [hxy.1]
    · exact hbuf
    · obtain ⟨e1, e2, e3, _⟩ := hxy
      subst e1; subst e2; subst e3
      simp only [bufferAfter]
      split
      · refine forall2_filter _ _ hbuf ?_
        intro x y hxy
        rw [hxy.1]
      · exact hbuf

theorem bufferOf_same {L : Layout} {n : Nat} {xs : List UID} {a a' : List (Item F)} (h : List.Forall₂ SameItem a a') :
    List.Forall₂ SameSpikeMsg (bufferOf L n xs a) (bufferOf L n xs a') := bufferFrom_same h .nil .nil

/-- Two runs of the same program whose backends do the same when they get the same. -/
theorem agree {L : Layout} {c : Code σ F} (hc : OrderBlind c) {full full' : List (Item F)} (he : Explained L [] full)
    (he' : Explained L [] full') (flow : ∀ a i b a' i' b', full = a ++ .iter i :: b → full' = a' ++ .iter i' :: b' →
      List.Forall₂ SameItem a a' → i.time = i'.time → i.fed = i'.fed → SameStep i.out i'.out) :
    ∀ (acts : List (Act σ)) (u : σ) (a a' tr tr' : List (Item F)) (ue ue' : σ), full = a ++ tr → full' = a' ++ tr' →
    List.Forall₂ SameItem a a' → UserRun L c u acts tr ue → UserRun L c u acts tr' ue' →
    List.Forall₂ SameItem tr tr' ∧ ue = ue' := by
  intro acts
  induction acts with
  | nil =>
    intro u a a' tr tr' ue ue' _ _ _ h h'
    cases tr <;> cases tr' <;> simp only [UserRun] at h h'
    exact ⟨.nil, h ▸ h'⟩
  | cons x acts ih =>
    intro u a a' tr tr' ue ue' hf hf' ha h h'
    have hlen : (iters a).length = (iters a').length := by
      clear hf hf' h h' ih he he' flow
      induction ha with
      | nil => rfl
      | @cons x y l l' hxy _ ih =>
        cases x <;> cases y <;> first | exact hxy.elim | simpa [iters] using ih
    have next : ∀ (p q : Item F) (is is' : List (Item F)) (v : σ), tr = p :: is → tr' = q :: is' → SameItem p q →
        UserRun L c v acts is ue → UserRun L c v acts is' ue' → List.Forall₂ SameItem tr tr' ∧ ue = ue' := by
      intro p q is is' v e1 e2 hpq h1 h2
      subst e1; subst e2
      obtain ⟨k1, k2⟩ := ih v (a ++ [p]) (a' ++ [q]) is is' ue ue' (by rw [hf]; simp) (by rw [hf']; simp)
        (forall2_append ha (.cons hpq .nil)) h1 h2
      exact ⟨.cons hpq k1, k2⟩
    cases x with
    | iterate p =>
      cases tr with
      | nil => simp only [UserRun] at h
      | cons it is =>
        cases tr' with
        | nil => simp only [UserRun] at h'
        | cons it' is' =>
          cases it <;> simp only [UserRun] at h
          cases it' <;> simp only [UserRun] at h'
          rename_i i i'
          have ok := he a _ _ hf
          have ok' := he' a' _ _ hf'
          rw [List.nil_append] at ok ok'
          have ht : i.time = i'.time := by rw [ok.1, ok'.1, hlen]
          obtain ⟨g1, g2, g3⟩ := h
          obtain ⟨g1', g2', g3'⟩ := h'
          rw [← ht] at g1' g2' g3'
          have hfed : i.fed = i'.fed := g1.trans g1'.symm
          have ho := flow a i is a' i' is' hf hf' ha ht hfed
          have hgot : List.Forall₂ (List.Forall₂ SameSpikeMsg) (i.handled.map (·.1)) (i'.handled.map (·.1)) := by
            rw [ok.2.2.1, ok'.2.2.1]
            refine forall2_maps _ (fun d => forall2_filter _ _ (spikesDuring_same ha ht hfed ho) ?_)
            intro x y hxy
            rw [hxy.1]
          have hobs : List.Forall₂ (List.Forall₂ SameMsg) i.observed i'.observed := by
            rw [ok.2.2.2, ok'.2.2.2]
            refine forall2_maps _ (fun d => forall2_filter _ _ (busDuring_same ha ht hfed ho) ?_)
            intro x y hxy
            rw [(sameMsg_kind hxy).1, (sameMsg_kind hxy).2]
          have e1 : (fun (k : Nat) (u : σ) => c.handle k u ((i'.handled.map (·.1)).getD k [])) =
              fun k u => c.handle k u ((i.handled.map (·.1)).getD k []) := by
            funext k v
            exact (hc.handle k v _ _ (forall2_getD hgot .nil k)).symm
          have e2 : (fun (k : Nat) (u : σ) => ((), c.observe k u (i'.observed.getD k []))) =
              fun k u => ((), c.observe k u (i.observed.getD k [])) := by
            funext k v
            rw [hc.observe k v _ _ (forall2_getD hobs .nil k)]
          rw [e1] at g2' g3'
          rw [e2] at g3'
          exact next _ _ is is' _ rfl rfl (show SameIter i i' from ⟨ht, hfed, ho, hgot, g2.trans g2'.symm, hobs⟩) g3 g3'
    | halt p =>
      cases tr with
      | nil => simp only [UserRun] at h
      | cons it is =>
        cases tr' with
        | nil => simp only [UserRun] at h'
        | cons it' is' =>
          cases it <;> simp only [UserRun] at h
          cases it' <;> simp only [UserRun] at h'
          rename_i t fed t' fed'
          have ok := he a _ _ hf
          have ok' := he' a' _ _ hf'
          rw [List.nil_append] at ok ok'
          have ht : t = t' := by rw [ok.1, ok'.1, hlen]
          subst ht
          exact next _ _ is is' _ rfl rfl ⟨rfl, h.1.trans h'.1.symm⟩ h.2 h'.2
    | read n x y mx =>
      cases tr with
      | nil => simp only [UserRun] at h
      | cons it is =>
        cases tr' with
        | nil => simp only [UserRun] at h'
        | cons it' is' =>
          cases it <;> simp only [UserRun] at h
          cases it' <;> simp only [UserRun] at h'
          rename_i n1 x1 y1 got n2 x2 y2 got'
          have ok := he a _ _ hf
          have ok' := he' a' _ _ hf'
          rw [List.nil_append] at ok ok'
          have e1 := h.1
          have e2 := h'.1
          simp only [Prod.mk.injEq] at e1 e2
          obtain ⟨rfl, rfl, rfl⟩ := e1
          obtain ⟨rfl, rfl, rfl⟩ := e2
          obtain ⟨d, hd, k⟩ := ok
          obtain ⟨d', hd', k'⟩ := ok'
          rw [hd, Option.some.injEq] at hd'
          subst hd'
          refine next _ _ is is' _ rfl rfl ⟨rfl, rfl, rfl, ?_⟩ h.2 h'.2
          rw [k, k']
          refine forall2_filter _ _ (bufferOf_same ha) ?_
          intro x y hxy
          rw [hxy.1]

end Knp.Prog
