import Verif.Model.Inference
import Mathlib.Tactic.Linarith
import Mathlib.Tactic.Ring
import Mathlib.Tactic.FieldSimp
import Mathlib.Tactic.NormNum
import Mathlib.Tactic.Positivity
import Mathlib.Data.List.Nodup

/-! Helper lemmas about building and preparing networks. -/

namespace Knp.Lemmas.Infer
open Knp Knp.Infer

variable {P J : Type}

/-! ## The constructor -/

/-- What every state of a constructor satisfies. -/
structure Inv (b : Builder P J) : Prop where
  pos : 0 < b.fresh
  pops : ∀ p ∈ b.network.populations, p.uid < b.fresh ∧ 0 < p.uid
  projs : ∀ j ∈ b.network.projections, j.uid < b.fresh ∧ 0 < j.uid
  keepPops : ∀ u ∈ b.keepPops, ∃ p ∈ b.network.populations, p.uid = u
  keepProjs : ∀ u ∈ b.keepProjs, ∃ j ∈ b.network.projections, j.uid = u
  infos : ∀ x ∈ b.infos, x.uid = 0 ∨ (∃ p ∈ b.network.populations, p.uid = x.uid) ∧ (x.uid ∈ b.keepPops ↔ x.keep = true)
  ends : ∀ j ∈ b.network.projections, j.uid ∈ b.keepProjs → (j.pre = 0 ∨ j.pre ∈ b.keepPops) ∧ (j.post = 0 ∨ j.post ∈ b.keepPops)
  nodupPops : (b.network.populations.map (fun p : PopEntity P => p.uid)).Nodup
  nodupProjs : (b.network.projections.map (fun j : ProjEntity J => j.uid)).Nodup
  outputs : ∀ u ∈ b.outputs, ∃ p ∈ b.network.populations, p.uid = u

theorem inv_new (fresh : Nat) (h : 0 < fresh) : Inv (Builder.new (P := P) (J := J) fresh) :=
  ⟨h, by simp [Builder.new], by simp [Builder.new], by simp [Builder.new], by simp [Builder.new], by simp [Builder.new], by simp [Builder.new],
    by simp [Builder.new], by simp [Builder.new], by simp [Builder.new]⟩

theorem keep_lt {b : Builder P J} (h : Inv b) {u : UID} (hu : u ∈ b.keepPops) : u < b.fresh ∧ 0 < u := by
  obtain ⟨p, hp, e⟩ := h.keepPops u hu
  exact e ▸ h.pops p hp

theorem keepJ_lt {b : Builder P J} (h : Inv b) {u : UID} (hu : u ∈ b.keepProjs) : u < b.fresh := by
  obtain ⟨p, hp, e⟩ := h.keepProjs u hu
  exact e ▸ (h.projs p hp).1

theorem step_population (b : Builder P J) (output keep : Bool) (kind : Nat) (body : P) : b.step (.population output keep kind body) =
    { b with
      network := { b.network with populations := b.network.populations ++ [⟨b.fresh, kind, body⟩] }
      keepPops := if keep then b.keepPops ++ [b.fresh] else b.keepPops
      outputs := if output then b.outputs ++ [b.fresh] else b.outputs
      infos := b.infos ++ [⟨keep, b.fresh⟩]
      fresh := b.fresh + 1 } := rfl

theorem step_projection (b : Builder P J) (pre post kind : Nat) (body : J) (wta : Bool) (x y : Info) (hx : b.infos[pre]? = some x)
    (hy : b.infos[post]? = some y) : b.step (.projection pre post kind body wta) =
    { b with
      network := { b.network with projections := b.network.projections ++ [⟨b.fresh, if wta then 0 else x.uid, y.uid, kind, body⟩] }
      keepProjs := if x.keep && y.keep then b.keepProjs ++ [b.fresh] else b.keepProjs
      fresh := b.fresh + 1 } := by
  simp only [Builder.step, hx, hy]

theorem inv_step {b : Builder P J} (h : Inv b) (op : Op P J) : Inv (b.step op) := by
  cases op with
  | population output keep kind body =>
    have hlt := fun (u : UID) (hu : u ∈ b.keepPops) => keep_lt h hu
    have hkp : ∀ u : UID, u ∈ (if keep then b.keepPops ++ [b.fresh] else b.keepPops) ↔ u ∈ b.keepPops ∨ (keep = true ∧ u = b.fresh) := by
      intro u; cases keep <;> simp
    rw [step_population]
    refine ⟨Nat.succ_pos _, ?_, ?_, ?_, h.keepProjs, ?_, ?_, ?_, h.nodupProjs, ?_⟩
    · intro p hp
      rcases List.mem_append.1 hp with hp | hp
      · exact ⟨Nat.lt_succ_of_lt (h.pops p hp).1, (h.pops p hp).2⟩
      · rw [List.mem_singleton.1 hp]; exact ⟨Nat.lt_succ_self _, h.pos⟩
    · intro j hj; exact ⟨Nat.lt_succ_of_lt (h.projs j hj).1, (h.projs j hj).2⟩
    · intro u hu
      rcases (hkp u).1 hu with hu | ⟨_, e⟩
      · obtain ⟨p, hp, e⟩ := h.keepPops u hu
        exact ⟨p, List.mem_append_left _ hp, e⟩
      · exact ⟨_, List.mem_append_right _ (List.mem_singleton.2 rfl), e.symm⟩
    · intro x hx
      rcases List.mem_append.1 hx with hx | hx
      · rcases h.infos x hx with e | ⟨⟨p, hp, e⟩, hk⟩
        · exact Or.inl e
        · refine Or.inr ⟨⟨p, List.mem_append_left _ hp, e⟩, ?_⟩
          show x.uid ∈ (if keep then b.keepPops ++ [b.fresh] else b.keepPops) ↔ _
          rw [hkp, hk]
          have : x.uid ≠ b.fresh := fun e' => Nat.lt_irrefl b.fresh (by have := (h.pops p hp).1; rw [e, e'] at this; exact this)
          simp [this]
      · rw [List.mem_singleton.1 hx]
        refine Or.inr ⟨⟨_, List.mem_append_right _ (List.mem_singleton.2 rfl), rfl⟩, ?_⟩
        show b.fresh ∈ (if keep then b.keepPops ++ [b.fresh] else b.keepPops) ↔ keep = true
        rw [hkp]
        have : ¬ b.fresh ∈ b.keepPops := fun hh => Nat.lt_irrefl _ (hlt _ hh).1
        simp [this]
    · intro j hj hk
      obtain ⟨h1, h2⟩ := h.ends j hj hk
      exact ⟨h1.imp id (fun e => (hkp _).2 (Or.inl e)), h2.imp id (fun e => (hkp _).2 (Or.inl e))⟩
    · show ((b.network.populations ++ [_]).map _).Nodup
      rw [List.map_append, List.nodup_append]
      refine ⟨h.nodupPops, by simp, ?_⟩
      intro u hu v hv e
      obtain ⟨p, hp, ep⟩ := List.mem_map.1 hu
      simp only [List.map_cons, List.map_nil, List.mem_singleton] at hv
      have := (h.pops p hp).1
      rw [ep, e, hv] at this
      exact Nat.lt_irrefl _ this
    · intro u hu
      have : u ∈ b.outputs ∨ u = b.fresh := by
        cases output
        · exact Or.inl hu
        · rcases List.mem_append.1 hu with hu | hu
          · exact Or.inl hu
          · exact Or.inr (List.mem_singleton.1 hu)
      rcases this with hu | e
      · obtain ⟨p, hp, e⟩ := h.outputs u hu
        exact ⟨p, List.mem_append_left _ hp, e⟩
      · exact ⟨_, List.mem_append_right _ (List.mem_singleton.2 rfl), e.symm⟩
  | channeled keep =>
    refine ⟨h.pos, h.pops, h.projs, h.keepPops, h.keepProjs, ?_, h.ends, h.nodupPops, h.nodupProjs, h.outputs⟩
    intro x hx
    rcases List.mem_append.1 hx with hx | hx
    · exact h.infos x hx
    · rw [List.mem_singleton.1 hx]; exact Or.inl rfl
  | projection pre post kind body wta =>
    cases hx : b.infos[pre]? with
    | none => simp only [Builder.step, hx]; exact h
    | some x =>
      cases hy : b.infos[post]? with
      | none => simp only [Builder.step, hx, hy]; exact h
      | some y =>
        rw [step_projection b pre post kind body wta x y hx hy]
        have hkj : ∀ u : UID, u ∈ (if x.keep && y.keep then b.keepProjs ++ [b.fresh] else b.keepProjs) ↔
            u ∈ b.keepProjs ∨ ((x.keep = true ∧ y.keep = true) ∧ u = b.fresh) := by
          intro u; cases x.keep <;> cases y.keep <;> simp
        have hinfo : ∀ z ∈ b.infos, z.keep = true → z.uid = 0 ∨ z.uid ∈ b.keepPops := by
          intro z hz hk
          rcases h.infos z hz with e | ⟨_, e⟩
          · exact Or.inl e
          · exact Or.inr (e.2 hk)
        have hxm := List.mem_of_getElem? hx
        have hym := List.mem_of_getElem? hy
        refine ⟨Nat.succ_pos _, ?_, ?_, h.keepPops, ?_, h.infos, ?_, h.nodupPops, ?_, h.outputs⟩
        · intro p hp; exact ⟨Nat.lt_succ_of_lt (h.pops p hp).1, (h.pops p hp).2⟩
        · intro j hj
          rcases List.mem_append.1 hj with hj | hj
          · exact ⟨Nat.lt_succ_of_lt (h.projs j hj).1, (h.projs j hj).2⟩
          · rw [List.mem_singleton.1 hj]; exact ⟨Nat.lt_succ_self _, h.pos⟩
        · intro u hu
          rcases (hkj u).1 hu with hu | ⟨_, e⟩
          · obtain ⟨p, hp, e⟩ := h.keepProjs u hu
            exact ⟨p, List.mem_append_left _ hp, e⟩
          · exact ⟨_, List.mem_append_right _ (List.mem_singleton.2 rfl), e.symm⟩
        · intro j hj hk
          have hk := (hkj _).1 hk
          rcases List.mem_append.1 hj with hj | hj
          · rcases hk with hk | ⟨_, e⟩
            · exact h.ends j hj hk
            · have := (h.projs j hj).1
              rw [e] at this
              exact absurd this (Nat.lt_irrefl _)
          · have ej := List.mem_singleton.1 hj
            rcases hk with hk | ⟨⟨kx, ky⟩, _⟩
            · rw [ej] at hk
              exact absurd (keepJ_lt h hk) (Nat.lt_irrefl _)
            · rw [ej]
              refine ⟨?_, hinfo y hym ky⟩
              show (if wta then 0 else x.uid) = 0 ∨ (if wta then 0 else x.uid) ∈ b.keepPops
              cases wta
              · exact hinfo x hxm kx
              · exact Or.inl rfl
        · show ((b.network.projections ++ [_]).map _).Nodup
          rw [List.map_append, List.nodup_append]
          refine ⟨h.nodupProjs, by simp, ?_⟩
          intro u hu v hv e
          obtain ⟨p, hp, ep⟩ := List.mem_map.1 hu
          simp only [List.map_cons, List.map_nil, List.mem_singleton] at hv
          have := (h.projs p hp).1
          rw [ep, e, hv] at this
          exact Nat.lt_irrefl _ this

theorem inv_run (ops : List (Op P J)) : ∀ {b : Builder P J}, Inv b → Inv (b.run ops) := by
  induction ops with
  | nil => exact fun h => h
  | cons op ops ih => exact fun h => ih (inv_step h op)

theorem fresh_mono_step (b : Builder P J) (op : Op P J) : b.fresh ≤ (b.step op).fresh := by
  cases op with
  | population => exact Nat.le_succ _
  | channeled => exact Nat.le_refl _
  | projection pre post kind body wta =>
    cases hx : b.infos[pre]? with
    | none => simp only [Builder.step, hx]; exact Nat.le_refl _
    | some x =>
      cases hy : b.infos[post]? with
      | none => simp only [Builder.step, hx, hy]; exact Nat.le_refl _
      | some y => rw [step_projection b pre post kind body wta x y hx hy]; exact Nat.le_succ _

/-- Later calls neither mark nor unmark what exists. -/
theorem marks_step {b : Builder P J} (op : Op P J) (u : UID) (hu : u < b.fresh) :
    (u ∈ (b.step op).keepPops ↔ u ∈ b.keepPops) ∧ (u ∈ (b.step op).keepProjs ↔ u ∈ b.keepProjs) := by
  have hne : u ≠ b.fresh := fun e => Nat.lt_irrefl b.fresh (by rw [e] at hu; exact hu)
  cases op with
  | population output keep kind body => rw [step_population]; cases keep <;> simp [hne]
  | channeled => exact ⟨Iff.rfl, Iff.rfl⟩
  | projection pre post kind body wta =>
    cases hx : b.infos[pre]? with
    | none => simp [Builder.step, hx]
    | some x =>
      cases hy : b.infos[post]? with
      | none => simp [Builder.step, hx, hy]
      | some y => rw [step_projection b pre post kind body wta x y hx hy]; cases x.keep <;> cases y.keep <;> simp [hne]

theorem marks_run (ops : List (Op P J)) : ∀ (b : Builder P J) (u : UID), u < b.fresh →
    (u ∈ (b.run ops).keepPops ↔ u ∈ b.keepPops) ∧ (u ∈ (b.run ops).keepProjs ↔ u ∈ b.keepProjs) := by
  induction ops with
  | nil => exact fun _ _ _ => ⟨Iff.rfl, Iff.rfl⟩
  | cons op ops ih =>
    intro b u hu
    have h1 := ih (b.step op) u (Nat.lt_of_lt_of_le hu (fresh_mono_step b op))
    have h2 := marks_step op u hu
    exact ⟨h1.1.trans h2.1, h1.2.trans h2.2⟩

/-! ## Winner takes all -/

/-- The pairs in the order the loops visit them. -/
def pairs (ws : List (List UID × List UID)) : List (UID × UID) := ws.flatMap (fun w => w.1.flatMap (fun s => w.2.map (fun r => (s, r))))

/-- The loops as one. -/
def runPairs : List (UID × UID) → Network P J × Nat → Outcome (Network P J × Nat)
  | [], st => .ok st
  | x :: l, st => (replaceOne st x).bind (runPairs l)

theorem runPairs_append : ∀ (a b : List (UID × UID)) (st : Network P J × Nat), runPairs (a ++ b) st = (runPairs a st).bind (runPairs b)
  | [], _, _ => rfl
  | x :: a, b, st => by
    show (replaceOne st x).bind (runPairs (a ++ b)) = ((replaceOne st x).bind (runPairs a)).bind (runPairs b)
    cases replaceOne st x with
    | ok st' => exact runPairs_append a b st'
    | throw w => rfl
    | ub => rfl

theorem replaceReceivers_eq (s : UID) : ∀ (rs : List UID) (st : Network P J × Nat), replaceReceivers s rs st = runPairs (rs.map (fun r => (s, r))) st
  | [], _ => rfl
  | r :: rs, st => by
    show (replaceOne st (s, r)).bind _ = (replaceOne st (s, r)).bind _
    cases replaceOne st (s, r) with
    | ok st' => exact replaceReceivers_eq s rs st'
    | throw w => rfl
    | ub => rfl

theorem replaceSenders_eq (rs : List UID) : ∀ (ss : List UID) (st : Network P J × Nat),
    replaceSenders rs ss st = runPairs (ss.flatMap (fun s => rs.map (fun r => (s, r)))) st
  | [], _ => rfl
  | s :: ss, st => by
    rw [List.flatMap_cons, runPairs_append, ← replaceReceivers_eq]
    show (replaceReceivers s rs st).bind _ = _
    cases replaceReceivers s rs st with
    | ok st' => exact replaceSenders_eq rs ss st'
    | throw w => rfl
    | ub => rfl

theorem replaceWta_eq : ∀ (ws : List (List UID × List UID)) (st : Network P J × Nat), replaceWta ws st = runPairs (pairs ws) st
  | [], _ => rfl
  | w :: ws, st => by
    unfold pairs
    rw [List.flatMap_cons, runPairs_append, ← replaceSenders_eq]
    show (replaceSenders w.2 w.1 st).bind _ = _
    cases replaceSenders w.2 w.1 st with
    | ok st' => exact replaceWta_eq ws st'
    | throw w => rfl
    | ub => rfl

theorem erase_none (u : UID) : ∀ (l : List (ProjEntity J)), l.find? (fun x => x.uid == u) = none → eraseVariant ProjEntity.uid u l = none
  | [], _ => rfl
  | x :: l, h => by
    rw [List.find?_cons] at h
    unfold eraseVariant
    cases e : (x.uid == u) with
    | true => rw [e] at h; cases h
    | false =>
      rw [e] at h
      simp only [Bool.false_eq_true, if_false]
      rw [erase_none u l h]; rfl

theorem erase_some (u : UID) : ∀ (l : List (ProjEntity J)) (j : ProjEntity J), (l.map (fun j : ProjEntity J => j.uid)).Nodup →
    l.find? (fun x => x.uid == u) = some j → eraseVariant ProjEntity.uid u l = some (l.filter (fun x => !(x.uid == u)))
  | [], _, _, h => by cases h
  | x :: l, j, hn, h => by
    rw [List.find?_cons] at h
    rw [List.map_cons, List.nodup_cons] at hn
    unfold eraseVariant
    cases e : (x.uid == u) with
    | true =>
      simp only [if_true]
      rw [List.filter_cons]
      simp only [e, Bool.not_true, Bool.false_eq_true, if_false]
      congr 1
      symm
      apply List.filter_eq_self.2
      intro y hy
      have : y.uid ≠ u := by
        intro h2
        have e' : x.uid = u := by simpa using e
        exact hn.1 (List.mem_map.2 ⟨y, hy, by rw [h2, e']⟩)
      simpa using this
    | false =>
      rw [e] at h
      simp only [Bool.false_eq_true, if_false]
      rw [erase_some u l j hn.2 h, List.filter_cons]
      simp only [e, Bool.not_false, if_true]
      rfl

/-- What one replacement does. -/
theorem replaceOne_some (n : Network P J) (f : Nat) (s r : UID) (j : ProjEntity J) (hn : (n.projections.map (fun j : ProjEntity J => j.uid)).Nodup)
    (h : n.projections.find? (fun x => x.uid == r) = some j) :
    replaceOne (n, f) (s, r) = .ok (⟨n.populations, n.projections.filter (fun x => !(x.uid == r)) ++ [{ j with uid := f, pre := s }]⟩, f + 1) := by
  unfold replaceOne Network.getProjection Network.removeProjection Network.addProjectionVariant findVariant
  simp only [h, erase_some r n.projections j hn h, Outcome.bind]

theorem replaceOne_none (n : Network P J) (f : Nat) (s r : UID) (h : n.projections.find? (fun x => x.uid == r) = none) :
    replaceOne (n, f) (s, r) = .throw "Cannot find projection" := by
  unfold replaceOne Network.getProjection findVariant
  simp only [h, Outcome.bind]

theorem find_after (l : List (ProjEntity J)) (c : ProjEntity J) (r r' : UID) (hc : c.uid ≠ r') :
    (l.filter (fun x => !(x.uid == r)) ++ [c]).find? (fun x => x.uid == r') = if r' = r then none else l.find? (fun x => x.uid == r') := by
  rw [List.find?_append]
  have e : [c].find? (fun x : ProjEntity J => x.uid == r') = none := by
    have : (c.uid == r') = false := by simpa using hc
    rw [List.find?_cons, this]; rfl
  rw [e, Option.or_none, List.find?_filter]
  split
  · rename_i h
    rw [List.find?_eq_none]
    intro x hx
    rw [h]
    cases (x.uid == r) <;> simp
  · rename_i h
    congr 1
    funext x
    cases e : (x.uid == r') with
    | false => simp
    | true =>
      have e' : x.uid = r' := by simpa using e
      have : (x.uid == r) = false := by simpa [e'] using h
      rw [this]; rfl

theorem nodup_after (l : List (ProjEntity J)) (c : ProjEntity J) (r : UID) (hn : (l.map (fun j : ProjEntity J => j.uid)).Nodup)
    (hc : ∀ x ∈ l, x.uid ≠ c.uid) : ((l.filter (fun x => !(x.uid == r)) ++ [c]).map (fun j : ProjEntity J => j.uid)).Nodup := by
  rw [List.map_append, List.nodup_append]
  refine ⟨(List.Sublist.map _ List.filter_sublist).nodup hn, by simp, ?_⟩
  intro u hu v hv e
  obtain ⟨x, hx, ex⟩ := List.mem_map.1 hu
  simp only [List.map_cons, List.map_nil, List.mem_singleton] at hv
  exact hc x (List.mem_filter.1 hx).1 (by rw [ex, e, hv])

/-- The copies of the projections of a network for the pairs; the first gets the UID `f`. -/
def copies (l : List (ProjEntity J)) : List (UID × UID) → Nat → List (ProjEntity J)
  | [], _ => []
  | x :: ps, f => ((l.find? (fun j => j.uid == x.2)).map (fun j => { j with uid := f, pre := x.1 })).toList ++ copies l ps (f + 1)

theorem copies_congr (l l' : List (ProjEntity J)) : ∀ (ps : List (UID × UID)) (f : Nat),
    (∀ x ∈ ps, l.find? (fun j => j.uid == x.2) = l'.find? (fun j => j.uid == x.2)) → copies l ps f = copies l' ps f
  | [], _, _ => rfl
  | x :: ps, f, h => by
    unfold copies
    rw [h x (List.mem_cons_self ..), copies_congr l l' ps (f + 1) (fun y hy => h y (List.mem_cons_of_mem _ hy))]

theorem runPairs_ok : ∀ (ps : List (UID × UID)) (n : Network P J) (f : Nat), (n.projections.map (fun j : ProjEntity J => j.uid)).Nodup →
    (∀ j ∈ n.projections, j.uid < f) → (∀ x ∈ ps, x.2 < f) → (ps.map Prod.snd).Nodup → (∀ x ∈ ps, ∃ j ∈ n.projections, j.uid = x.2) →
    runPairs ps (n, f) = .ok (⟨n.populations, n.projections.filter (fun j => !(ps.map Prod.snd).contains j.uid) ++ copies n.projections ps f⟩, f + ps.length)
  | [], n, f, _, _, _, _, _ => by
    show Outcome.ok (n, f) = _
    simp [copies, List.filter_true]
  | (s, r) :: ps, n, f, hn, hj, hp, hd, hex => by
    rw [List.map_cons, List.nodup_cons] at hd
    obtain ⟨j0, hj0, e0⟩ := hex (s, r) (List.mem_cons_self ..)
    cases hf : n.projections.find? (fun x => x.uid == r) with
    | none =>
      rw [List.find?_eq_none] at hf
      exact absurd (by simpa using e0) (hf j0 hj0)
    | some j =>
      show (replaceOne (n, f) (s, r)).bind (runPairs ps) = _
      rw [replaceOne_some n f s r j hn hf]
      show runPairs ps _ = _
      have hne : ∀ x ∈ ps, f ≠ x.2 := fun x hx e => Nat.lt_irrefl f (by have := hp x (List.mem_cons_of_mem _ hx); rw [← e] at this; exact this)
      have hfa := fun (x : UID × UID) (hx : x ∈ ps) => find_after n.projections { j with uid := f, pre := s } r x.2 (hne x hx)
      have hr : ∀ x ∈ ps, x.2 ≠ r := fun x hx e => hd.1 (List.mem_map.2 ⟨x, hx, e⟩)
      rw [runPairs_ok ps _ (f + 1)]
      · have e1 : (n.projections.filter (fun x : ProjEntity J => !(x.uid == r)) ++ [({ j with uid := f, pre := s } : ProjEntity J)]).filter
            (fun j => !(ps.map Prod.snd).contains j.uid) =
            n.projections.filter (fun x => !(((s, r) :: ps).map Prod.snd).contains x.uid) ++ [({ j with uid := f, pre := s } : ProjEntity J)] := by
          rw [List.filter_append, List.filter_filter]
          congr 1
          · apply List.filter_congr
            intro x _
            rw [List.map_cons, List.contains_cons, Bool.not_or, Bool.and_comm]
          · have : (ps.map Prod.snd).contains f = false := by
              cases h : (ps.map Prod.snd).contains f with
              | false => rfl
              | true =>
                rw [List.contains_iff_mem] at h
                obtain ⟨x, hx, e⟩ := List.mem_map.1 h
                exact absurd e.symm (hne x hx)
            rw [List.filter_cons]
            simp only [this, Bool.not_false, if_true, List.filter_nil]
        have e2 : copies (n.projections.filter (fun x : ProjEntity J => !(x.uid == r)) ++ [({ j with uid := f, pre := s } : ProjEntity J)]) ps (f + 1) = copies n.projections ps (f + 1) := by
          apply copies_congr
          intro x hx
          rw [hfa x hx, if_neg (hr x hx)]
        have e3 : copies n.projections ((s, r) :: ps) f = { j with uid := f, pre := s } :: copies n.projections ps (f + 1) := by
          conv => lhs; unfold copies
          simp only [hf]; rfl
        rw [e3]
        show Outcome.ok ((⟨n.populations, _ ++ copies (n.projections.filter (fun x : ProjEntity J => !(x.uid == r)) ++ [({ j with uid := f, pre := s } : ProjEntity J)]) ps (f + 1)⟩ : Network P J), f + 1 + ps.length) = _
        rw [e1, e2, List.append_assoc, List.length_cons]
        have : f + 1 + ps.length = f + (ps.length + 1) := by omega
        rw [this]; rfl
      · exact nodup_after _ _ _ hn (fun x hx e => Nat.lt_irrefl f (by have := hj x hx; rw [e] at this; exact this))
      · intro x hx
        rcases List.mem_append.1 hx with hx | hx
        · exact Nat.lt_succ_of_lt (hj x (List.mem_filter.1 hx).1)
        · rw [List.mem_singleton.1 hx]; exact Nat.lt_succ_self _
      · exact fun x hx => Nat.lt_succ_of_lt (hp x (List.mem_cons_of_mem _ hx))
      · exact hd.2
      · intro x hx
        obtain ⟨y, hy, ey⟩ := hex x (List.mem_cons_of_mem _ hx)
        refine ⟨y, List.mem_append_left _ (List.mem_filter.2 ⟨hy, ?_⟩), ey⟩
        have : y.uid ≠ r := by rw [ey]; exact hr x hx
        simpa using this

theorem runPairs_throw : ∀ (ps : List (UID × UID)) (n : Network P J) (f : Nat), (n.projections.map (fun j : ProjEntity J => j.uid)).Nodup →
    (∀ j ∈ n.projections, j.uid < f) → (∀ x ∈ ps, x.2 < f) → ¬ ((ps.map Prod.snd).Nodup ∧ ∀ x ∈ ps, ∃ j ∈ n.projections, j.uid = x.2) →
    runPairs ps (n, f) = .throw "Cannot find projection"
  | [], _, _, _, _, _, h => absurd ⟨List.nodup_nil, by simp⟩ h
  | (s, r) :: ps, n, f, hn, hj, hp, h => by
    show (replaceOne (n, f) (s, r)).bind (runPairs ps) = _
    cases hf : n.projections.find? (fun x => x.uid == r) with
    | none => rw [replaceOne_none n f s r hf]; rfl
    | some j =>
      rw [replaceOne_some n f s r j hn hf]
      have hjm := List.mem_of_find?_eq_some hf
      have hju : j.uid = r := by have := List.find?_some hf; simpa using this
      apply runPairs_throw ps
      · exact nodup_after _ _ _ hn (fun x hx e => Nat.lt_irrefl f (by have := hj x hx; rw [e] at this; exact this))
      · intro x hx
        rcases List.mem_append.1 hx with hx | hx
        · exact Nat.lt_succ_of_lt (hj x (List.mem_filter.1 hx).1)
        · rw [List.mem_singleton.1 hx]; exact Nat.lt_succ_self _
      · exact fun x hx => Nat.lt_succ_of_lt (hp x (List.mem_cons_of_mem _ hx))
      · intro ⟨h1, h2⟩
        apply h
        have key : ∀ x ∈ ps, x.2 ≠ r ∧ ∃ j ∈ n.projections, j.uid = x.2 := by
          intro x hx
          obtain ⟨y, hy, ey⟩ := h2 x hx
          rcases List.mem_append.1 hy with hy | hy
          · have := List.mem_filter.1 hy
            have h3 : y.uid ≠ r := by simpa using this.2
            exact ⟨fun e => h3 (by rw [ey, e]), y, this.1, ey⟩
          · have : f = x.2 := by rw [← ey, List.mem_singleton.1 hy]
            exact absurd (hp x (List.mem_cons_of_mem _ hx)) (by rw [← this]; exact Nat.lt_irrefl _)
        refine ⟨?_, ?_⟩
        · rw [List.map_cons, List.nodup_cons]
          refine ⟨?_, h1⟩
          intro hm
          obtain ⟨x, hx, e⟩ := List.mem_map.1 hm
          exact (key x hx).1 e
        · intro x hx
          rcases List.mem_cons.1 hx with e | hx
          · exact ⟨j, hjm, by rw [e]; exact hju⟩
          · exact (key x hx).2

/-! ## Quantisation -/

section Q
set_option linter.unusedSectionVars false
variable {F R S : Type} [Field F] [LinearOrder F] [IsStrictOrderedRing F] [FloorRing F]

omit [FloorRing F] [IsStrictOrderedRing F] in
theorem maxWeight_ge (l : List (Syn F S)) : 0 ≤ maxWeight l ∧ ∀ s ∈ l, s.weight ≤ maxWeight l := by
  have key : ∀ (l : List (Syn F S)) (m : F), m ≤ l.foldl (fun m s => if m < s.weight then s.weight else m) m ∧
      ∀ s ∈ l, s.weight ≤ l.foldl (fun m s => if m < s.weight then s.weight else m) m := by
    intro l
    induction l with
    | nil => intro m; exact ⟨le_refl _, by simp⟩
    | cons s l ih =>
      intro m
      rw [List.foldl_cons]
      obtain ⟨h1, h2⟩ := ih (if m < s.weight then s.weight else m)
      have h3 : m ≤ (if m < s.weight then s.weight else m) ∧ s.weight ≤ (if m < s.weight then s.weight else m) := by
        split
        · rename_i h; exact ⟨le_of_lt h, le_refl _⟩
        · rename_i h; exact ⟨le_refl _, not_lt.1 h⟩
      refine ⟨le_trans h3.1 h1, ?_⟩
      intro t ht
      rcases List.mem_cons.1 ht with e | ht
      · rw [e]; exact le_trans h3.2 h1
      · exact h2 t ht
  exact key l 0

omit [FloorRing F] [IsStrictOrderedRing F] in
theorem minWeight_le (l : List (Syn F S)) : minWeight l ≤ 0 ∧ ∀ s ∈ l, minWeight l ≤ s.weight := by
  have key : ∀ (l : List (Syn F S)) (m : F), l.foldl (fun m s => if m > s.weight then s.weight else m) m ≤ m ∧
      ∀ s ∈ l, l.foldl (fun m s => if m > s.weight then s.weight else m) m ≤ s.weight := by
    intro l
    induction l with
    | nil => intro m; exact ⟨le_refl _, by simp⟩
    | cons s l ih =>
      intro m
      rw [List.foldl_cons]
      obtain ⟨h1, h2⟩ := ih (if m > s.weight then s.weight else m)
      have h3 : (if m > s.weight then s.weight else m) ≤ m ∧ (if m > s.weight then s.weight else m) ≤ s.weight := by
        split
        · rename_i h; exact ⟨le_of_lt h, le_refl _⟩
        · rename_i h; exact ⟨le_refl _, not_lt.1 h⟩
      refine ⟨le_trans h1 h3.1, ?_⟩
      intro t ht
      rcases List.mem_cons.1 ht with e | ht
      · rw [e]; exact le_trans h1 h3.2
      · exact h2 t ht
  exact key l 0

omit [FloorRing F] in
theorem totalMax_ge (l : List (Syn F S)) (t : Nat) : 0 ≤ totalMax l t ∧ (t : F) ≤ totalMax l t ∧ ∀ s ∈ l, |s.weight| ≤ totalMax l t := by
  have h1 : (t : F) ≤ totalMax l t := le_max_right _ _
  refine ⟨le_trans (Nat.cast_nonneg t) h1, h1, ?_⟩
  intro s hs
  obtain ⟨a, b⟩ := maxWeight_ge l
  obtain ⟨c, d⟩ := minWeight_le l
  have e1 : maxWeight l ≤ totalMax l t := le_trans (le_abs_self _) (le_trans (le_max_left _ _) (le_max_left _ _))
  have e2 : -minWeight l ≤ totalMax l t := le_trans (neg_le_abs _) (le_trans (le_max_right _ _) (le_max_left _ _))
  rw [abs_le]
  have := b s hs; have := d s hs
  constructor <;> linarith

theorem round_near (x : F) : |Infer.round x - x| ≤ 1 / 2 := by
  unfold Infer.round
  split
  · have h1 := Int.floor_le (x + 1 / 2)
    have h2 := Int.lt_floor_add_one (x + 1 / 2)
    rw [abs_le]; constructor <;> linarith
  · have h1 := Int.floor_le (-x + 1 / 2)
    have h2 := Int.lt_floor_add_one (-x + 1 / 2)
    rw [abs_le]; constructor <;> linarith

theorem round_int (x : F) (m : Nat) (h : |x| ≤ (m : F)) : ∃ z : Int, Infer.round x = (z : F) ∧ z.natAbs ≤ m := by
  have hm := abs_le.1 h
  have key : ∀ y : F, 0 ≤ y → y ≤ (m : F) → 0 ≤ ⌊y + 1 / 2⌋ ∧ ⌊y + 1 / 2⌋ ≤ (m : Int) := by
    intro y h0 hy
    constructor
    · rw [Int.le_floor]; push_cast; linarith
    · have : ⌊y + 1 / 2⌋ < (m : Int) + 1 := by
        rw [Int.floor_lt]; push_cast
        have : (1 : F) / 2 < 1 := by norm_num
        linarith
      omega
  unfold Infer.round
  split
  · rename_i h0
    refine ⟨⌊x + 1 / 2⌋, rfl, ?_⟩
    have := key x h0 hm.2
    omega
  · rename_i h0
    refine ⟨-⌊-x + 1 / 2⌋, by push_cast; rfl, ?_⟩
    have := key (-x) (by linarith [not_le.1 h0]) (by linarith)
    omega

theorem toU16_ok {x : F} {a : Nat} (h : toU16 x = .ok a) (h0 : 0 ≤ x) : (a : F) ≤ x ∧ x < (a : F) + 1 := by
  unfold toU16 at h
  split at h
  · cases h
    have h1 := Int.floor_le x
    have h2 := Int.lt_floor_add_one x
    have h3 : 0 ≤ ⌊x⌋ := Int.floor_nonneg.2 h0
    have e : ((⌊x⌋.toNat : Nat) : F) = ((⌊x⌋ : Int) : F) := by
      have : ((⌊x⌋.toNat : Nat) : Int) = ⌊x⌋ := Int.toNat_of_nonneg h3
      calc ((⌊x⌋.toNat : Nat) : F) = (((⌊x⌋.toNat : Nat) : Int) : F) := by rw [Int.cast_natCast]
        _ = _ := by rw [this]
    rw [e]
    exact ⟨h1, h2⟩
  · cases h

theorem toU16_lt {x : F} {a : Nat} (h : toU16 x = .ok a) : x < (a : F) + 1 := by
  rcases le_or_gt 0 x with h0 | h0
  · exact (toU16_ok h h0).2
  · exact lt_of_lt_of_le h0 (by positivity)

theorem maxThreshold_ge {l : List (Neuron F R)} {t : Nat} (h : maxThreshold l = .ok t) :
    ∀ n ∈ l, ∃ a, toU16 ((n.activation : F) + n.additional) = .ok a ∧ a ≤ t := by
  have key : ∀ (l : List (Neuron F R)) (m t : Nat),
      l.foldlM (fun m n => (toU16 ((n.activation : F) + n.additional)).bind fun t => Outcome.ok (max m t)) m = Outcome.ok t →
      m ≤ t ∧ ∀ n ∈ l, ∃ a, toU16 ((n.activation : F) + n.additional) = .ok a ∧ a ≤ t := by
    intro l
    induction l with
    | nil => intro m t h; cases h; exact ⟨Nat.le_refl _, by simp⟩
    | cons n l ih =>
      intro m t h
      rw [List.foldlM_cons] at h
      cases e : toU16 ((n.activation : F) + n.additional) with
      | ok a =>
        rw [e] at h
        obtain ⟨h1, h2⟩ := ih (max m a) t h
        refine ⟨le_trans (le_max_left _ _) h1, ?_⟩
        intro n' hn'
        rcases List.mem_cons.1 hn' with e' | hn'
        · rw [e']; exact ⟨a, e, le_trans (le_max_right _ _) h1⟩
        · exact h2 n' hn'
      | throw w => rw [e] at h; cases h
      | ub => rw [e] at h; cases h
  exact (key l 0 t h).2

omit [IsStrictOrderedRing F] in
theorem scaleNeurons_ok (sc : F) : ∀ (l l' : List (Neuron F R)), scaleNeurons sc l = .ok l' →
    l'.length = l.length ∧ ∀ (i : Nat) (n : Neuron F R), l[i]? = some n →
      ∃ a, toU16 ((n.activation : F) * sc) = .ok a ∧ l'[i]? = some ⟨a, n.additional * sc, n.rest⟩
  | [], l', h => by cases h; exact ⟨rfl, by simp⟩
  | n :: l, l', h => by
    unfold scaleNeurons at h
    cases e : toU16 ((n.activation : F) * sc) with
    | ok a =>
      rw [e] at h
      cases e2 : scaleNeurons sc l with
      | ok l2 =>
        rw [e2] at h
        cases h
        obtain ⟨h1, h2⟩ := scaleNeurons_ok sc l l2 e2
        refine ⟨by simp [h1], ?_⟩
        intro i m hm
        cases i with
        | zero =>
          simp only [List.getElem?_cons_zero, Option.some.injEq] at hm ⊢
          subst hm
          exact ⟨a, e, rfl⟩
        | succ i =>
          simp only [List.getElem?_cons_succ] at hm ⊢
          exact h2 i m hm
      | throw w => rw [e2] at h; cases h
      | ub => rw [e2] at h; cases h
    | throw w => rw [e] at h; cases h
    | ub => rw [e] at h; cases h

/-- The first population with a UID. -/
def pick {P : Type} (u : UID) (l : List (PopEntity P)) : Option (PopEntity P) := l.find? (fun p => p.uid == u)

theorem pick_set {P : Type} (u v : UID) (b : P) : ∀ (l : List (PopEntity P)),
    pick v (setNeurons u b l) = if v = u then (pick v l).map (fun p => { p with body := b }) else pick v l
  | [] => by unfold setNeurons pick; split <;> rfl
  | p :: l => by
    have ih := pick_set u v b l
    unfold pick at ih ⊢
    unfold setNeurons
    cases e : (p.uid == u) with
    | true =>
      have e' : p.uid = u := by simpa using e
      simp only [if_true, List.find?_cons]
      by_cases h : v = u
      · have : (p.uid == v) = true := by simp [e', h]
        simp only [this]
        rw [if_pos h]; rfl
      · have : (p.uid == v) = false := by simp [e', Ne.symm h]
        simp [this, h]
    | false =>
      simp only [Bool.false_eq_true, if_false, List.find?_cons]
      cases e2 : (p.uid == v) with
      | true =>
        have h : v ≠ u := by
          intro h
          rw [h, e] at e2; cases e2
        simp [h]
      | false => exact ih

/-- What one projection does, if nothing fails and its population has neurons. -/
theorem quantizeOne_ok {nan : F} {altai : Nat} {pops pops' : List (PopEntity (List (Neuron F R)))} {j j' : ProjEntity (List (Syn F S))}
    (h : quantizeOne nan altai pops j = .ok (pops', j')) :
    ∃ p t, pick j.post pops = some p ∧ p.kind = altai ∧ maxThreshold p.body = .ok t ∧
      ((totalMax j.body t = 0 ∧ p.body = [] ∧ pops' = pops ∧ j' = { j with body := j.body.map (fun s => { s with weight := nan }) }) ∨
       (0 < totalMax j.body t ∧ ∃ ns, scaleNeurons (255 / totalMax j.body t) p.body = .ok ns ∧ pops' = setNeurons j.post ns pops ∧
         j' = { j with body := scaleSyns (255 / totalMax j.body t) j.body })) := by
  unfold quantizeOne Network.getPopulationTyped findVariant at h
  cases e : pops.find? (fun x => x.uid == j.post) with
  | none => simp only [e, Outcome.bind] at h; cases h
  | some p =>
    simp only [e] at h
    by_cases hk : p.kind = altai
    · rw [if_pos hk] at h
      simp only [Outcome.bind] at h
      cases et : maxThreshold p.body with
      | ok t =>
        rw [et] at h
        simp only at h
        refine ⟨p, t, e, hk, et, ?_⟩
        split at h
        · rename_i h0
          left
          cases eb : p.body with
          | nil => rw [eb] at h; cases h; exact ⟨h0, rfl, rfl, rfl⟩
          | cons n l => rw [eb] at h; cases h
        · rename_i h0
          right
          refine ⟨lt_of_le_of_ne (totalMax_ge j.body t).1 (Ne.symm h0), ?_⟩
          cases es : scaleNeurons (255 / totalMax j.body t) p.body with
          | ok ns => rw [es] at h; cases h; exact ⟨ns, rfl, rfl, rfl⟩
          | throw w => rw [es] at h; cases h
          | ub => rw [es] at h; cases h
      | throw w => rw [et] at h; cases h
      | ub => rw [et] at h; cases h
    · rw [if_neg hk] at h; cases h

omit [IsStrictOrderedRing F] in
theorem quantizeLoop_split {nan : F} {altai : Nat} : ∀ (a : List (ProjEntity (List (Syn F S)))) (j : ProjEntity (List (Syn F S)))
    (b : List (ProjEntity (List (Syn F S)))) (pops pops' : List (PopEntity (List (Neuron F R)))) (js' : List (ProjEntity (List (Syn F S)))),
    quantizeLoop nan altai (a ++ j :: b) pops = .ok (pops', js') →
    ∃ p1 p2 a' j' b', quantizeLoop nan altai a pops = .ok (p1, a') ∧ quantizeOne nan altai p1 j = .ok (p2, j') ∧
      quantizeLoop nan altai b p2 = .ok (pops', b') ∧ js' = a' ++ j' :: b' ∧ a'.length = a.length
  | [], j, b, pops, pops', js', h => by
    simp only [List.nil_append] at h
    unfold quantizeLoop at h
    cases e : quantizeOne nan altai pops j with
    | ok r =>
      rw [e] at h
      cases e2 : quantizeLoop nan altai b r.1 with
      | ok q =>
        simp only [Outcome.bind, e2] at h
        cases h
        exact ⟨pops, r.1, [], r.2, q.2, rfl, e, e2, rfl, rfl⟩
      | throw w => simp only [Outcome.bind, e2] at h; cases h
      | ub => simp only [Outcome.bind, e2] at h; cases h
    | throw w => rw [e] at h; cases h
    | ub => rw [e] at h; cases h
  | x :: a, j, b, pops, pops', js', h => by
    rw [List.cons_append] at h
    unfold quantizeLoop at h
    cases e : quantizeOne nan altai pops x with
    | ok r =>
      rw [e] at h
      cases e2 : quantizeLoop nan altai (a ++ j :: b) r.1 with
      | ok q =>
        simp only [Outcome.bind, e2] at h
        cases h
        obtain ⟨p1, p2, a', j', b', h1, h2, h3, h4, h5⟩ := quantizeLoop_split a j b r.1 q.1 q.2 e2
        refine ⟨p1, p2, r.2 :: a', j', b', ?_, h2, h3, by rw [h4]; rfl, by simp [h5]⟩
        unfold quantizeLoop
        rw [e]
        simp only [Outcome.bind, h1]
      | throw w => simp only [Outcome.bind, e2] at h; cases h
      | ub => simp only [Outcome.bind, e2] at h; cases h
    | throw w => rw [e] at h; cases h
    | ub => rw [e] at h; cases h

/-- A property of the neurons of population `u` kept by every projection is kept by the loop. -/
theorem quantizeLoop_keeps {nan : F} {altai : Nat} (u : UID) (Q : Option (PopEntity (List (Neuron F R))) → Prop) :
    ∀ (js : List (ProjEntity (List (Syn F S)))) (pops pops' : List (PopEntity (List (Neuron F R)))) (js' : List (ProjEntity (List (Syn F S)))),
    quantizeLoop nan altai js pops = .ok (pops', js') →
    (∀ j ∈ js, ∀ (p p' : List (PopEntity (List (Neuron F R)))) (j' : ProjEntity (List (Syn F S))), quantizeOne nan altai p j = .ok (p', j') →
      Q (pick u p) → Q (pick u p')) → Q (pick u pops) → Q (pick u pops')
  | [], pops, pops', js', h, _, hq => by cases h; exact hq
  | j :: js, pops, pops', js', h, hs, hq => by
    obtain ⟨p1, p2, a', j', b', h1, h2, h3, _, _⟩ := quantizeLoop_split [] j js pops pops' js' h
    cases h1
    exact quantizeLoop_keeps u Q js p2 pops' b' h3 (fun x hx => hs x (List.mem_cons_of_mem _ hx)) (hs j (List.mem_cons_self ..) pops p2 j' h2 hq)

/-- A projection does not touch populations it does not end in. -/
theorem quantizeOne_other {nan : F} {altai : Nat} {pops pops' : List (PopEntity (List (Neuron F R)))} {j j' : ProjEntity (List (Syn F S))}
    (h : quantizeOne nan altai pops j = .ok (pops', j')) (u : UID) (hu : u ≠ j.post) : pick u pops' = pick u pops := by
  obtain ⟨p, t, _, _, _, h | ⟨_, ns, _, e, _⟩⟩ := quantizeOne_ok h
  · rw [h.2.2.1]
  · rw [e, pick_set, if_neg hu]

end Q

end Knp.Lemmas.Infer
