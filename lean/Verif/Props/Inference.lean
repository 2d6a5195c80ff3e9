import Verif.Lemmas.Inference
import Verif.Model.Stdp
import Mathlib.Algebra.Order.Field.Rat
import Mathlib.Data.Rat.Floor

/-! Building a network and preparing it for inference: C154–C158. -/

namespace Knp.Props
open Knp Knp.Infer

section C154
variable {P J : Type}

/-! ## C154: the network for inference -/

/-- The backend holds the same populations and projections, connected as built; learning changed what is in them. -/
def SameShape (built trained : Network P J) : Prop :=
  trained.populations.map (fun p : PopEntity P => p.uid) = built.populations.map (fun p : PopEntity P => p.uid) ∧
    trained.projections.map (fun j : ProjEntity J => (j.uid, j.pre, j.post)) = built.projections.map (fun j : ProjEntity J => (j.uid, j.pre, j.post))

/-- The network the program has after building, training and preparing. -/
def inference (b : Builder P J) (trained : Network P J) : Network P J := restore b.keepPops b.keepProjs trained

/-- **C154.**  A population of the trained network is in the network for inference exactly if it was added to be kept. -/
theorem C154_populations (fresh : Nat) (h0 : 0 < fresh) (before after : List (Op P J)) (output keep : Bool) (kind : Nat) (body : P) (trained : Network P J)
    (p : PopEntity P) (hp : p ∈ trained.populations) (hu : p.uid = ((Builder.new fresh).run before).fresh) :
    p ∈ (inference ((Builder.new fresh).run (before ++ [.population output keep kind body] ++ after)) trained).populations ↔ keep = true := by
  have hI := Lemmas.Infer.inv_run before (Lemmas.Infer.inv_new (P := P) (J := J) fresh h0)
  unfold inference restore Builder.run
  rw [List.foldl_append, List.foldl_append]
  show p ∈ List.filter (fun p => ((((Builder.new fresh).run before).step (.population output keep kind body)).run after).keepPops.contains p.uid) _ ↔ _
  generalize hb : (Builder.new fresh).run before = b at *
  rw [List.mem_filter, List.contains_iff_mem, hu, (Lemmas.Infer.marks_run after _ b.fresh (Nat.lt_succ_self _)).1]
  show p ∈ _ ∧ b.fresh ∈ (if keep then b.keepPops ++ [b.fresh] else b.keepPops) ↔ _
  have : ¬ b.fresh ∈ b.keepPops := fun hh => Nat.lt_irrefl _ (Lemmas.Infer.keep_lt hI hh).1
  cases keep <;> simp [hp, this]

/-- A projection of the trained network is in the network for inference exactly if the populations it was added between are to be kept. -/
theorem C154_projections (fresh : Nat) (h0 : 0 < fresh) (before after : List (Op P J)) (pre post kind : Nat) (body : J) (wta : Bool) (x y : Info)
    (hx : ((Builder.new (P := P) (J := J) fresh).run before).infos[pre]? = some x) (hy : ((Builder.new (P := P) (J := J) fresh).run before).infos[post]? = some y)
    (trained : Network P J) (j : ProjEntity J) (hj : j ∈ trained.projections) (hu : j.uid = ((Builder.new (P := P) (J := J) fresh).run before).fresh) :
    j ∈ (inference ((Builder.new fresh).run (before ++ [.projection pre post kind body wta] ++ after)) trained).projections ↔ x.keep = true ∧ y.keep = true := by
  have hI := Lemmas.Infer.inv_run before (Lemmas.Infer.inv_new (P := P) (J := J) fresh h0)
  unfold inference restore Builder.run
  rw [List.foldl_append, List.foldl_append]
  show j ∈ List.filter (fun j => ((((Builder.new fresh).run before).step (.projection pre post kind body wta)).run after).keepProjs.contains j.uid) _ ↔ _
  generalize hb : (Builder.new (P := P) (J := J) fresh).run before = b at *
  have hlt : b.fresh < (b.step (.projection pre post kind body wta)).fresh := by
    rw [Lemmas.Infer.step_projection b pre post kind body wta x y hx hy]; exact Nat.lt_succ_self _
  rw [List.mem_filter, List.contains_iff_mem, hu, (Lemmas.Infer.marks_run after _ b.fresh hlt).2, Lemmas.Infer.step_projection b pre post kind body wta x y hx hy]
  have : ¬ b.fresh ∈ b.keepProjs := fun hh => Nat.lt_irrefl _ (Lemmas.Infer.keepJ_lt hI hh)
  cases x.keep <;> cases y.keep <;> simp [hj, this]

/-- None of its projections hangs: each end is a population of the network for inference, or the empty UID – a channel or a winner-takes-all handler. -/
theorem C154_closed (fresh : Nat) (h0 : 0 < fresh) (ops : List (Op P J)) (trained : Network P J)
    (hs : SameShape ((Builder.new fresh).run ops).network trained) :
    ∀ j ∈ (inference ((Builder.new fresh).run ops) trained).projections,
      (j.pre = 0 ∨ ∃ p ∈ (inference ((Builder.new fresh).run ops) trained).populations, p.uid = j.pre) ∧
      (j.post = 0 ∨ ∃ p ∈ (inference ((Builder.new fresh).run ops) trained).populations, p.uid = j.post) := by
  have hI := Lemmas.Infer.inv_run ops (Lemmas.Infer.inv_new (P := P) (J := J) fresh h0)
  generalize (Builder.new fresh).run ops = b at *
  intro j hj
  obtain ⟨hj, hk⟩ := List.mem_filter.1 hj
  rw [List.contains_iff_mem] at hk
  have hm : (j.uid, j.pre, j.post) ∈ b.network.projections.map (fun j : ProjEntity J => (j.uid, j.pre, j.post)) := by
    rw [← hs.2]; exact List.mem_map.2 ⟨j, hj, rfl⟩
  obtain ⟨i, hi, e⟩ := List.mem_map.1 hm
  simp only [Prod.mk.injEq] at e
  obtain ⟨h1, h2⟩ := hI.ends i hi (by rw [e.1]; exact hk)
  have key : ∀ u : UID, u ∈ b.keepPops → ∃ p ∈ (inference b trained).populations, p.uid = u := by
    intro u hu
    obtain ⟨q, hq, eq⟩ := hI.keepPops u hu
    have : q.uid ∈ trained.populations.map (fun p : PopEntity P => p.uid) := by rw [hs.1]; exact List.mem_map.2 ⟨q, hq, rfl⟩
    obtain ⟨p, hp, ep⟩ := List.mem_map.1 this
    refine ⟨p, List.mem_filter.2 ⟨hp, ?_⟩, by rw [ep, eq]⟩
    rw [List.contains_iff_mem, ep, eq]; exact hu
  rw [e.2.1] at h1; rw [e.2.2] at h2
  exact ⟨h1.imp id (key _), h2.imp id (key _)⟩

/-- Setting up the output channels (inference.h:86, model.cpp:40-48) does not fail if the output populations are kept. -/
theorem C154_outputs (fresh : Nat) (h0 : 0 < fresh) (ops : List (Op P J)) (trained : Network P J)
    (hs : SameShape ((Builder.new fresh).run ops).network trained)
    (hk : ∀ keep kind body, Op.population true keep kind body ∈ ops → keep = true) :
    ∀ u ∈ ((Builder.new (P := P) (J := J) fresh).run ops).outputs, (inference ((Builder.new fresh).run ops) trained).isPopulationExists u = true := by
  have hI := Lemmas.Infer.inv_run ops (Lemmas.Infer.inv_new (P := P) (J := J) fresh h0)
  have hsub : ∀ (ops : List (Op P J)) (b : Builder P J), (∀ keep kind body, Op.population true keep kind body ∈ ops → keep = true) →
      (∀ u ∈ b.outputs, u ∈ b.keepPops) → ∀ u ∈ (b.run ops).outputs, u ∈ (b.run ops).keepPops := by
    intro ops
    induction ops with
    | nil => exact fun _ _ h => h
    | cons op ops ih =>
      intro b hk h
      refine ih (b.step op) (fun keep kind body hm => hk keep kind body (List.mem_cons_of_mem _ hm)) ?_
      cases op with
      | population output keep kind body =>
        cases output with
        | true =>
          have e := hk keep kind body (List.mem_cons_self ..)
          subst e
          intro u hu
          have hu : u ∈ b.outputs ++ [b.fresh] := hu
          show u ∈ b.keepPops ++ [b.fresh]
          rcases List.mem_append.1 hu with hu | hu
          · exact List.mem_append_left _ (h u hu)
          · exact List.mem_append_right _ hu
        | false =>
          intro u hu
          have hu : u ∈ b.outputs := hu
          show u ∈ (if keep then b.keepPops ++ [b.fresh] else b.keepPops)
          cases keep
          · exact h u hu
          · exact List.mem_append_left _ (h u hu)
      | channeled keep => exact h
      | projection pre post kind body wta =>
        cases hx : b.infos[pre]? with
        | none => simp only [Builder.step, hx]; exact h
        | some x =>
          cases hy : b.infos[post]? with
          | none => simp only [Builder.step, hx, hy]; exact h
          | some y => rw [Lemmas.Infer.step_projection b pre post kind body wta x y hx hy]; exact h
  intro u hu
  have hkeep := hsub ops (Builder.new fresh) hk (by simp [Builder.new]) u hu
  generalize (Builder.new fresh).run ops = b at *
  obtain ⟨q, hq, eq⟩ := hI.keepPops u hkeep
  have : q.uid ∈ trained.populations.map (fun p : PopEntity P => p.uid) := by rw [hs.1]; exact List.mem_map.2 ⟨q, hq, rfl⟩
  obtain ⟨p, hp, ep⟩ := List.mem_map.1 this
  unfold Network.isPopulationExists findVariant
  rw [List.find?_isSome]
  refine ⟨p, List.mem_filter.2 ⟨hp, ?_⟩, ?_⟩
  · rw [List.contains_iff_mem, ep, eq]; exact hkeep
  · simpa using ep.trans eq

/-- The network of the example: input and output kept, gate not, the image a kept channel, labels a channel that is not. -/
def exampleOps : List (Op Nat Nat) :=
  [.population false true 0 11, .population true true 0 12, .population false false 0 13, .channeled true, .channeled false,
    .projection 3 0 1 21 false, .projection 4 0 0 22 false, .projection 0 1 0 23 true, .projection 1 2 0 24 false, .projection 2 0 0 25 false]

example : inference ((Builder.new 1).run exampleOps) ((Builder.new 1).run exampleOps).network =
    ⟨[⟨1, 0, 11⟩, ⟨2, 0, 12⟩], [⟨4, 0, 1, 1, 21⟩, ⟨6, 0, 2, 0, 23⟩]⟩ := by decide

end C154

/-! ## C155: winner-takes-all replaced by connections -/

section C155
variable {P J : Type}

/-- All UIDs of projections are different and were given before `fresh`. -/
def Fresh (n : Network P J) (fresh : Nat) : Prop :=
  (n.projections.map (fun j : ProjEntity J => j.uid)).Nodup ∧ ∀ j ∈ n.projections, j.uid < fresh

/-- **C155.**  Replacing winner-takes-all groups connects every sender of a group to every projection of the group: for each there is afterwards a
projection from the sender with the same target and synapses, and all other projections stay as they are. -/
def C155_statement (P J : Type) : Prop := ∀ (ws : List (List UID × List UID)) (n : Network P J) (fresh : Nat), Fresh n fresh →
  (∀ w ∈ ws, ∀ r ∈ w.2, ∃ j ∈ n.projections, j.uid = r) → (∀ w ∈ ws, ∀ w' ∈ ws, w ≠ w' → ∀ r ∈ w.2, r ∉ w'.2) → (ws.Nodup ∧ ∀ w ∈ ws, w.2.Nodup ∧ w.1.Nodup) →
  ∃ n' fresh', replaceWta ws (n, fresh) = .ok (n', fresh') ∧ n'.populations = n.populations ∧
    (∀ w ∈ ws, ∀ s ∈ w.1, ∀ r ∈ w.2, ∀ j ∈ n.projections, j.uid = r → ∃ j' ∈ n'.projections, j'.pre = s ∧ j'.post = j.post ∧ j'.kind = j.kind ∧ j'.body = j.body) ∧
    (∀ j ∈ n.projections, (∀ w ∈ ws, j.uid ∉ w.2) → j ∈ n'.projections)

/-- Sender and receiver of every connection a list of groups asks for, in the order of the loops. -/
def connections (ws : List (List UID × List UID)) : List (UID × UID) := ws.flatMap (fun w => w.1.flatMap (fun s => w.2.map (fun r => (s, r))))

/-- It works if no projection is asked for twice – in particular every group has one sender, or no projection –; the copies follow the projections that
stay, in order, with new UIDs. -/
theorem C155_replaced_partial (ws : List (List UID × List UID)) (n : Network P J) (fresh : Nat) (hf : Fresh n fresh)
    (hd : ((connections ws).map Prod.snd).Nodup) (hex : ∀ c ∈ connections ws, ∃ j ∈ n.projections, j.uid = c.2) :
    ∃ n', replaceWta ws (n, fresh) = .ok (n', fresh + (connections ws).length) ∧ n'.populations = n.populations ∧
      (∀ (i : Nat) (s r : UID) (j : ProjEntity J), (connections ws)[i]? = some (s, r) → j ∈ n.projections → j.uid = r →
        { j with uid := fresh + i, pre := s } ∈ n'.projections) ∧
      (∀ j ∈ n.projections, (∀ c ∈ connections ws, c.2 ≠ j.uid) → j ∈ n'.projections) ∧
      n'.projections.length = n.projections.length ∧
      (∀ j ∈ n'.projections, j.uid < fresh → j ∈ n.projections ∧ ∀ c ∈ connections ws, c.2 ≠ j.uid) := by
  have hlt : ∀ x ∈ connections ws, x.2 < fresh := fun x hx => by
    obtain ⟨j, hj, e⟩ := hex x hx
    exact e ▸ hf.2 j hj
  have h := Lemmas.Infer.runPairs_ok (connections ws) n fresh hf.1 hf.2 hlt hd hex
  have key : ∀ (cs : List (UID × UID)) (f : Nat), (∀ c ∈ cs, ∃ j ∈ n.projections, j.uid = c.2) →
      (∀ (i : Nat) (s r : UID) (j : ProjEntity J), cs[i]? = some (s, r) → j ∈ n.projections → j.uid = r →
        { j with uid := f + i, pre := s } ∈ Lemmas.Infer.copies n.projections cs f) ∧
      (Lemmas.Infer.copies n.projections cs f).length = cs.length ∧ (∀ j ∈ Lemmas.Infer.copies n.projections cs f, f ≤ j.uid) := by
    intro cs
    induction cs with
    | nil => intro f _; exact ⟨by simp, rfl, fun j hj => by cases hj⟩
    | cons c cs ih =>
      intro f hc
      obtain ⟨i1, i2, i3⟩ := ih (f + 1) (fun c' hc' => hc c' (List.mem_cons_of_mem _ hc'))
      obtain ⟨j0, hj0, e0⟩ := hc c (List.mem_cons_self ..)
      cases hfd : n.projections.find? (fun j => j.uid == c.2) with
      | none =>
        rw [List.find?_eq_none] at hfd
        exact absurd (by simpa using e0) (hfd j0 hj0)
      | some k =>
        have hk := List.mem_of_find?_eq_some hfd
        have hku : k.uid = c.2 := by have := List.find?_some hfd; simpa using this
        have e : Lemmas.Infer.copies n.projections (c :: cs) f = ({ k with uid := f, pre := c.1 } : ProjEntity J) :: Lemmas.Infer.copies n.projections cs (f + 1) := by
          conv => lhs; unfold Lemmas.Infer.copies
          simp only [hfd]; rfl
        rw [e]
        refine ⟨?_, by simp [i2], ?_⟩
        · intro i s r j hi hj hu
          cases i with
          | zero =>
            simp only [List.getElem?_cons_zero, Option.some.injEq] at hi
            have : j = k := List.inj_on_of_nodup_map hf.1 hj hk (by show j.uid = k.uid; rw [hu, hku, hi])
            rw [this, hi]
            exact List.mem_cons_self ..
          | succ i =>
            simp only [List.getElem?_cons_succ] at hi
            have := i1 i s r j hi hj hu
            rw [show f + (i + 1) = f + 1 + i from by omega]
            exact List.mem_cons_of_mem _ this
        · intro j hj
          rcases List.mem_cons.1 hj with e | hj
          · rw [e]
          · exact Nat.le_of_succ_le (i3 j hj)
  obtain ⟨k1, k2, k3⟩ := key (connections ws) fresh hex
  refine ⟨⟨n.populations, n.projections.filter (fun j => !((connections ws).map Prod.snd).contains j.uid) ++ Lemmas.Infer.copies n.projections (connections ws) fresh⟩,
    (Lemmas.Infer.replaceWta_eq ws (n, fresh)).trans h, rfl, ?_, ?_, ?_, ?_⟩
  · intro i s r j hi hj hu
    exact List.mem_append_right _ (k1 i s r j hi hj hu)
  · intro j hj hc
    refine List.mem_append_left _ (List.mem_filter.2 ⟨hj, ?_⟩)
    rw [Bool.not_eq_true', ← Bool.not_eq_true, List.contains_iff_mem]
    intro hm
    obtain ⟨c, hcm, e⟩ := List.mem_map.1 hm
    exact hc c hcm e
  · rw [List.length_append, k2]
    have hperm : (n.projections.filter (fun j => ((connections ws).map Prod.snd).contains j.uid)).length = (connections ws).length := by
      have hp : ((n.projections.filter (fun j => ((connections ws).map Prod.snd).contains j.uid)).map (fun j : ProjEntity J => j.uid)).Perm ((connections ws).map Prod.snd) := by
        rw [List.perm_ext_iff_of_nodup ((List.Sublist.map _ List.filter_sublist).nodup hf.1) hd]
        intro u
        constructor
        · intro hu
          obtain ⟨j, hj, e⟩ := List.mem_map.1 hu
          have := (List.mem_filter.1 hj).2
          rw [List.contains_iff_mem] at this
          rw [← e]; exact this
        · intro hu
          obtain ⟨c, hc, e⟩ := List.mem_map.1 hu
          obtain ⟨j, hj, ej⟩ := hex c hc
          refine List.mem_map.2 ⟨j, List.mem_filter.2 ⟨hj, ?_⟩, by rw [ej, e]⟩
          rw [List.contains_iff_mem, ej, e]; exact hu
      have := hp.length_eq
      rwa [List.length_map, List.length_map] at this
    rw [← hperm]
    have := List.length_eq_length_filter_add (l := n.projections) (fun j => ((connections ws).map Prod.snd).contains j.uid)
    omega
  · intro j hj hu
    rcases List.mem_append.1 hj with hj | hj
    · obtain ⟨h1, h2⟩ := List.mem_filter.1 hj
      refine ⟨h1, ?_⟩
      intro c hc e
      rw [Bool.not_eq_true', ← Bool.not_eq_true, List.contains_iff_mem] at h2
      exact h2 (List.mem_map.2 ⟨c, hc, e⟩)
    · exact absurd (k3 j hj) (Nat.not_le.2 hu)

/-- In every other case it throws: a group of two senders with a projection, two groups with a projection in common, or a projection that is not there. -/
theorem C155_otherwise (ws : List (List UID × List UID)) (n : Network P J) (fresh : Nat) (hf : Fresh n fresh) (hlt : ∀ c ∈ connections ws, c.2 < fresh)
    (h : ¬ (((connections ws).map Prod.snd).Nodup ∧ ∀ c ∈ connections ws, ∃ j ∈ n.projections, j.uid = c.2)) :
    replaceWta ws (n, fresh) = .throw "Cannot find projection" := by
  rw [Lemmas.Infer.replaceWta_eq]
  exact Lemmas.Infer.runPairs_throw (connections ws) n fresh hf.1 hf.2 hlt h

/-- A group with two senders and a projection always makes it throw. -/
theorem C155_two_senders (ws : List (List UID × List UID)) (n : Network P J) (fresh : Nat) (hf : Fresh n fresh) (hlt : ∀ c ∈ connections ws, c.2 < fresh)
    (s s' r : UID) (ss : List UID) (rs : List UID) (hw : (s :: s' :: ss, r :: rs) ∈ ws) : replaceWta ws (n, fresh) = .throw "Cannot find projection" := by
  apply C155_otherwise ws n fresh hf hlt
  intro ⟨hd, _⟩
  unfold connections at hd
  rw [List.map_flatMap, List.nodup_flatMap] at hd
  have := hd.1 _ hw
  simp at this

theorem C155_replaced_refuted : ¬ C155_statement Unit Unit := by
  intro h
  obtain ⟨n', f', e, _⟩ := h [([1, 2], [3])] ⟨[], [⟨3, 0, 4, 0, ()⟩]⟩ 10 ⟨by decide, by decide⟩ (by decide)
    (by intro w hw w' hw' hne; simp only [List.mem_singleton] at hw hw'; exact absurd (hw.trans hw'.symm) hne) (by decide)
  have : replaceWta [([1, 2], [3])] ((⟨[], [⟨3, 0, 4, 0, ()⟩]⟩ : Network Unit Unit), 10) = .throw "Cannot find projection" := by decide
  rw [this] at e; cases e

example : replaceWta [([1], [3])] ((⟨[], [⟨3, 0, 4, 0, 7⟩, ⟨5, 1, 2, 0, 8⟩]⟩ : Network Nat Nat), 10) =
    .ok (⟨[], [⟨5, 1, 2, 0, 8⟩, ⟨10, 1, 4, 0, 7⟩]⟩, 11) := by decide

end C155

/-! ## C156: the range of a quantised network -/

section Q
variable {F R S : Type} [Field F] [LinearOrder F] [IsStrictOrderedRing F] [FloorRing F]

private theorem nonempty_kept {nan : F} {altai : Nat} {u : UID} (p p' : List (PopEntity (List (Neuron F R)))) (j j' : ProjEntity (List (Syn F S)))
    (h : quantizeOne nan altai p j = .ok (p', j')) (hq : ∀ x, Lemmas.Infer.pick u p = some x → x.body ≠ []) :
    ∀ x, Lemmas.Infer.pick u p' = some x → x.body ≠ [] := by
  obtain ⟨q, t, hp, _, _, h | ⟨_, ns, hs, e, _⟩⟩ := Lemmas.Infer.quantizeOne_ok h
  · rw [h.2.2.1]; exact hq
  · rw [e, Lemmas.Infer.pick_set]
    split
    · rename_i hu
      intro x hx
      rw [← hu] at hp
      rw [hp] at hx
      cases hx
      have hl := (Lemmas.Infer.scaleNeurons_ok _ _ _ hs).1
      have := hq q hp
      show ns ≠ []
      intro hn
      rw [hn] at hl
      exact this (List.eq_nil_of_length_eq_zero hl.symm)
    · exact hq

/-- **C156.**  In a quantised network all weights are whole numbers from -255 to 255, and so are all thresholds – the sum of the two thresholds of a
neuron – of populations a projection ends in. -/
def C156_statement (F R S : Type) [Field F] [LinearOrder F] [FloorRing F] : Prop :=
  ∀ (nan : F) (altai : Nat) (n n' : Network (List (Neuron F R)) (List (Syn F S))), quantize nan altai n = .ok n' → (∀ p ∈ n.populations, p.body ≠ []) →
    (∀ j ∈ n'.projections, ∀ s ∈ j.body, ∃ z : Int, s.weight = (z : F) ∧ z.natAbs ≤ 255) ∧
    (∀ j ∈ n'.projections, ∀ p, n'.getPopulation j.post = .ok p → ∀ m ∈ p.body, ∃ z : Int, (m.activation : F) + m.additional = (z : F) ∧ z.natAbs ≤ 255)

/-- The weights are. -/
theorem C156_weights_partial (nan : F) (altai : Nat) (n n' : Network (List (Neuron F R)) (List (Syn F S))) (h : quantize nan altai n = .ok n')
    (hne : ∀ p ∈ n.populations, p.body ≠ []) : ∀ j ∈ n'.projections, ∀ s ∈ j.body, ∃ z : Int, s.weight = (z : F) ∧ z.natAbs ≤ 255 := by
  unfold quantize at h
  cases e : quantizeLoop nan altai n.projections n.populations with
  | ok q =>
    rw [e] at h
    cases h
    have key : ∀ (js : List (ProjEntity (List (Syn F S)))) (pops pops' : List (PopEntity (List (Neuron F R)))) (js' : List (ProjEntity (List (Syn F S)))),
        quantizeLoop nan altai js pops = .ok (pops', js') → (∀ u, ∀ x, Lemmas.Infer.pick u pops = some x → x.body ≠ []) →
        ∀ j ∈ js', ∀ s ∈ j.body, ∃ z : Int, s.weight = (z : F) ∧ z.natAbs ≤ 255 := by
      intro js
      induction js with
      | nil => intro pops pops' js' h _; cases h; simp
      | cons j js ih =>
        intro pops pops' js' h hne
        obtain ⟨p1, p2, a', j', b', h1, h2, h3, h4, _⟩ := Lemmas.Infer.quantizeLoop_split [] j js pops pops' js' h
        cases h1
        rw [h4]
        intro i hi
        rcases List.mem_cons.1 hi with e | hi
        · rw [e]
          obtain ⟨p, t, hp, _, _, h | ⟨h0, ns, _, _, ej⟩⟩ := Lemmas.Infer.quantizeOne_ok h2
          · exact absurd h.2.1 (hne _ p hp)
          · rw [ej]
            intro s hs
            obtain ⟨s0, hs0, es⟩ := List.mem_map.1 hs
            rw [← es]
            have hb := (Lemmas.Infer.totalMax_ge j.body t).2.2 s0 hs0
            apply Lemmas.Infer.round_int _ 255
            rw [abs_mul, abs_div, abs_of_pos h0, abs_of_pos (show (0 : F) < 255 by norm_num)]
            have : |s0.weight| * (255 / totalMax j.body t) ≤ totalMax j.body t * (255 / totalMax j.body t) :=
              mul_le_mul_of_nonneg_right hb (by positivity)
            have e2 : totalMax j.body t * (255 / totalMax j.body t) = 255 := by field_simp
            rw [e2] at this
            exact_mod_cast this
        · exact ih p2 pops' b' h3 (fun u => nonempty_kept pops p2 j j' h2 (hne u)) i hi
    exact key _ _ _ _ e (fun u x hx => hne x (List.mem_of_find?_eq_some hx))
  | throw w => rw [e] at h; cases h
  | ub => rw [e] at h; cases h

/-- The thresholds are, if no neuron has an additional threshold. -/
theorem C156_thresholds_partial (nan : F) (altai : Nat) (n n' : Network (List (Neuron F R)) (List (Syn F S))) (h : quantize nan altai n = .ok n')
    (j : ProjEntity (List (Syn F S))) (hj : j ∈ n.projections) (p p' : PopEntity (List (Neuron F R))) (hp : n.getPopulation j.post = .ok p)
    (h0 : ∀ m ∈ p.body, m.additional = 0) (hp' : n'.getPopulation j.post = .ok p') : ∀ m ∈ p'.body, m.activation ≤ 255 ∧ m.additional = 0 := by
  have pick_of : ∀ (l : List (PopEntity (List (Neuron F R)))) (js : List (ProjEntity (List (Syn F S)))) (q : PopEntity (List (Neuron F R))),
      (⟨l, js⟩ : Network _ _).getPopulation j.post = .ok q → Lemmas.Infer.pick j.post l = some q := by
    intro l js q hq
    unfold Network.getPopulation findVariant at hq
    unfold Lemmas.Infer.pick
    cases e : l.find? (fun x => x.uid == j.post) with
    | none => rw [e] at hq; cases hq
    | some x => rw [e] at hq; cases hq; rfl
  unfold quantize at h
  cases e : quantizeLoop nan altai n.projections n.populations with
  | throw w => rw [e] at h; cases h
  | ub => rw [e] at h; cases h
  | ok q =>
    rw [e] at h
    cases h
    have hstep : ∀ (i : ProjEntity (List (Syn F S))) (a b : List (PopEntity (List (Neuron F R)))) (i' : ProjEntity (List (Syn F S))),
        quantizeOne nan altai a i = .ok (b, i') → i.post = j.post →
        (∀ x, Lemmas.Infer.pick j.post a = some x → ∀ m ∈ x.body, m.additional = 0) →
        ∀ x, Lemmas.Infer.pick j.post b = some x → ∀ m ∈ x.body, m.activation ≤ 255 ∧ m.additional = 0 := by
      intro i a b i' hi hpost hz
      obtain ⟨p, t, hp, _, ht, h | ⟨hT, ns, hs, eb, _⟩⟩ := Lemmas.Infer.quantizeOne_ok hi
      · rw [hpost] at hp
        intro x hx
        rw [h.2.2.1, hp] at hx
        cases hx
        rw [h.2.1]; simp
      · rw [eb, hpost, Lemmas.Infer.pick_set, if_pos rfl]
        rw [hpost] at hp
        intro x hx
        rw [hp] at hx
        cases hx
        intro m hm
        obtain ⟨k, hk⟩ := List.mem_iff_getElem?.1 hm
        obtain ⟨hl, hg⟩ := Lemmas.Infer.scaleNeurons_ok _ _ _ hs
        have hk' : ns[k]? = some m := hk
        have hlt : k < p.body.length := by
          rw [← hl]
          exact (List.getElem?_eq_some_iff.1 hk').1
        obtain ⟨v, hv, ev⟩ := hg k p.body[k] (List.getElem?_eq_getElem hlt)
        rw [hk'] at ev
        cases ev
        have hzero := hz p hp p.body[k] (List.getElem_mem hlt)
        refine ⟨?_, by show p.body[k].additional * _ = 0; rw [hzero, zero_mul]⟩
        obtain ⟨w, hw, hwt⟩ := Lemmas.Infer.maxThreshold_ge ht p.body[k] (List.getElem_mem hlt)
        rw [hzero, add_zero] at hw
        have hw1 := (Lemmas.Infer.toU16_ok hw (Nat.cast_nonneg _)).2
        have hw2 : p.body[k].activation ≤ w := by
          have : p.body[k].activation < w + 1 := by exact_mod_cast hw1
          omega
        have hT2 := (Lemmas.Infer.totalMax_ge i.body t).2.1
        have h3 : ((p.body[k].activation : Nat) : F) ≤ totalMax i.body t := le_trans (by exact_mod_cast le_trans hw2 hwt) hT2
        have h4 : ((p.body[k].activation : Nat) : F) * (255 / totalMax i.body t) ≤ 255 := by
          have : ((p.body[k].activation : Nat) : F) * (255 / totalMax i.body t) ≤ totalMax i.body t * (255 / totalMax i.body t) :=
            mul_le_mul_of_nonneg_right h3 (by positivity)
          have e2 : totalMax i.body t * (255 / totalMax i.body t) = 255 := by field_simp
          rwa [e2] at this
        have h5 := (Lemmas.Infer.toU16_ok hv (by positivity)).1
        have h6 : ((v : Nat) : F) ≤ 255 := le_trans h5 h4
        exact_mod_cast h6
    obtain ⟨a, b, hab⟩ := List.append_of_mem hj
    rw [hab] at e
    obtain ⟨p1, p2, a', j', b', h1, h2, h3, _, _⟩ := Lemmas.Infer.quantizeLoop_split a j b n.populations q.1 q.2 e
    have hz0 : ∀ x, Lemmas.Infer.pick j.post n.populations = some x → ∀ m ∈ x.body, m.additional = 0 := by
      intro x hx
      rw [pick_of _ _ p hp] at hx
      cases hx; exact h0
    have hz1 := Lemmas.Infer.quantizeLoop_keeps j.post (fun o => ∀ x, o = some x → ∀ m ∈ x.body, m.additional = 0) a n.populations p1 a' h1
      (fun i _ l l' i' hi hz => by
        by_cases hpost : i.post = j.post
        · exact fun x hx m hm => (hstep i l l' i' hi hpost hz x hx m hm).2
        · show ∀ x, Lemmas.Infer.pick j.post l' = some x → _
          rw [Lemmas.Infer.quantizeOne_other hi j.post (Ne.symm hpost)]; exact hz) hz0
    have hz2 := hstep j p1 p2 j' h2 rfl hz1
    have hz3 := Lemmas.Infer.quantizeLoop_keeps j.post (fun o => ∀ x, o = some x → ∀ m ∈ x.body, m.activation ≤ 255 ∧ m.additional = 0) b p2 q.1 b' h3
      (fun i _ l l' i' hi hz => by
        by_cases hpost : i.post = j.post
        · exact hstep i l l' i' hi hpost (fun x hx m hm => (hz x hx m hm).2)
        · show ∀ x, Lemmas.Infer.pick j.post l' = some x → _
          rw [Lemmas.Infer.quantizeOne_other hi j.post (Ne.symm hpost)]; exact hz) hz2
    exact hz3 p' (pick_of _ _ p' hp')

/-- A network whose projections all have a weight other than zero and end in AltAI populations without additional thresholds can be quantised. -/
theorem C156_defined (nan : F) (altai : Nat) (n : Network (List (Neuron F R)) (List (Syn F S)))
    (hpop : ∀ p ∈ n.populations, p.kind = altai ∧ ∀ m ∈ p.body, m.activation < 65536 ∧ m.additional = 0)
    (hproj : ∀ j ∈ n.projections, (∃ s ∈ j.body, s.weight ≠ 0) ∧ ∃ p ∈ n.populations, p.uid = j.post) :
    ∃ n', quantize nan altai n = .ok n' := by
  have hfits : ∀ x : F, 0 ≤ x → x < 65536 → ∃ a, toU16 x = .ok a := fun x h0 h1 => ⟨_, by unfold toU16; exact if_pos ⟨by linarith, h1⟩⟩
  have hthr : ∀ (l : List (Neuron F R)), (∀ m ∈ l, m.activation < 65536 ∧ m.additional = 0) → ∃ t, maxThreshold l = .ok t := by
    have : ∀ (l : List (Neuron F R)) (m0 : Nat), (∀ m ∈ l, m.activation < 65536 ∧ m.additional = 0) →
        ∃ t, l.foldlM (fun m n => (toU16 ((n.activation : F) + n.additional)).bind fun t => Outcome.ok (max m t)) m0 = Outcome.ok t := by
      intro l
      induction l with
      | nil => intro m0 _; exact ⟨m0, rfl⟩
      | cons m l ih =>
        intro m0 h
        obtain ⟨h1, h2⟩ := h m (List.mem_cons_self ..)
        obtain ⟨a, ha⟩ := hfits ((m.activation : F) + m.additional) (by rw [h2]; positivity) (by rw [h2, add_zero]; exact_mod_cast h1)
        rw [List.foldlM_cons, ha]
        exact ih (max m0 a) (fun x hx => h x (List.mem_cons_of_mem _ hx))
    exact fun l => this l 0
  have hscale : ∀ (sc : F), 0 < sc → ∀ (l : List (Neuron F R)), (∀ m ∈ l, (m.activation : F) * sc ≤ 255 ∧ m.additional = 0) →
      ∃ l', scaleNeurons sc l = .ok l' ∧ ∀ m ∈ l', m.activation < 65536 ∧ m.additional = 0 := by
    intro sc hsc l
    induction l with
    | nil => intro _; exact ⟨[], rfl, by simp⟩
    | cons m l ih =>
      intro h
      obtain ⟨h1, h2⟩ := h m (List.mem_cons_self ..)
      obtain ⟨a, ha⟩ := hfits ((m.activation : F) * sc) (by positivity) (lt_of_le_of_lt h1 (by norm_num))
      obtain ⟨l', hl, hall⟩ := ih (fun x hx => h x (List.mem_cons_of_mem _ hx))
      refine ⟨⟨a, m.additional * sc, m.rest⟩ :: l', by unfold scaleNeurons; rw [ha]; simp only [Outcome.bind, hl], ?_⟩
      intro x hx
      rcases List.mem_cons.1 hx with e | hx
      · rw [e]
        refine ⟨?_, by show m.additional * sc = 0; rw [h2, zero_mul]⟩
        have h3 := (Lemmas.Infer.toU16_ok ha (by positivity)).1
        have h4 : ((a : Nat) : F) ≤ 255 := le_trans h3 h1
        have : a ≤ 255 := by exact_mod_cast h4
        show a < 65536
        omega
      · exact hall x hx
  have hset : ∀ (u : UID) (b : List (Neuron F R)) (l : List (PopEntity (List (Neuron F R)))) (p : PopEntity (List (Neuron F R))), p ∈ setNeurons u b l →
      p ∈ l ∨ ∃ q ∈ l, p = { q with body := b } := by
    intro u b l
    induction l with
    | nil => intro p hp; cases hp
    | cons q l ih =>
      intro p hp
      unfold setNeurons at hp
      split at hp
      · rcases List.mem_cons.1 hp with e | hp
        · exact Or.inr ⟨q, List.mem_cons_self .., e⟩
        · exact Or.inl (List.mem_cons_of_mem _ hp)
      · rcases List.mem_cons.1 hp with e | hp
        · exact Or.inl (by rw [e]; exact List.mem_cons_self ..)
        · rcases ih p hp with h | ⟨r, hr, e⟩
          · exact Or.inl (List.mem_cons_of_mem _ h)
          · exact Or.inr ⟨r, List.mem_cons_of_mem _ hr, e⟩
  have hset2 : ∀ (u : UID) (b : List (Neuron F R)) (l : List (PopEntity (List (Neuron F R)))), (setNeurons u b l).map (fun p => p.uid) = l.map (fun p => p.uid) := by
    intro u b l
    induction l with
    | nil => rfl
    | cons q l ih =>
      unfold setNeurons
      split
      · rfl
      · rw [List.map_cons, ih, List.map_cons]
  have key : ∀ (js : List (ProjEntity (List (Syn F S)))) (pops : List (PopEntity (List (Neuron F R)))),
      (∀ p ∈ pops, p.kind = altai ∧ ∀ m ∈ p.body, m.activation < 65536 ∧ m.additional = 0) →
      (∀ j ∈ js, (∃ s ∈ j.body, s.weight ≠ 0) ∧ j.post ∈ pops.map (fun p => p.uid)) → ∃ q, quantizeLoop nan altai js pops = .ok q := by
    intro js
    induction js with
    | nil => intro pops _ _; exact ⟨(pops, []), rfl⟩
    | cons j js ih =>
      intro pops hpops hjs
      obtain ⟨⟨s, hs, hs0⟩, hpost⟩ := hjs j (List.mem_cons_self ..)
      obtain ⟨p0, hp0, ep0⟩ := List.mem_map.1 hpost
      cases hf : pops.find? (fun x => x.uid == j.post) with
      | none =>
        rw [List.find?_eq_none] at hf
        exact absurd (by simpa using ep0) (hf p0 hp0)
      | some p =>
        have hp := List.mem_of_find?_eq_some hf
        obtain ⟨hk, hm⟩ := hpops p hp
        obtain ⟨t, ht⟩ := hthr p.body hm
        obtain ⟨g0, g1, g2⟩ := Lemmas.Infer.totalMax_ge j.body t
        have hT : 0 < totalMax j.body t := lt_of_lt_of_le (abs_pos.2 hs0) (g2 s hs)
        obtain ⟨ns, hns, hns2⟩ := hscale (255 / totalMax j.body t) (by positivity) p.body (fun m hm' => by
          refine ⟨?_, (hm m hm').2⟩
          obtain ⟨w, hw, hwt⟩ := Lemmas.Infer.maxThreshold_ge ht m hm'
          rw [(hm m hm').2, add_zero] at hw
          have hw1 := (Lemmas.Infer.toU16_ok hw (Nat.cast_nonneg _)).2
          have hw2 : m.activation ≤ w := by
            have : m.activation < w + 1 := by exact_mod_cast hw1
            omega
          have h3 : ((m.activation : Nat) : F) ≤ totalMax j.body t := le_trans (by exact_mod_cast le_trans hw2 hwt) g1
          have : ((m.activation : Nat) : F) * (255 / totalMax j.body t) ≤ totalMax j.body t * (255 / totalMax j.body t) :=
            mul_le_mul_of_nonneg_right h3 (by positivity)
          have e2 : totalMax j.body t * (255 / totalMax j.body t) = 255 := by field_simp
          rwa [e2] at this)
        have hone : quantizeOne nan altai pops j =
            .ok (setNeurons j.post ns pops, { j with body := scaleSyns (255 / totalMax j.body t) j.body }) := by
          unfold quantizeOne Network.getPopulationTyped findVariant
          simp only [hf]
          rw [if_pos hk]
          simp only [Outcome.bind, ht]
          rw [if_neg (ne_of_gt hT)]
          simp only [hns]
        obtain ⟨q, hq⟩ := ih (setNeurons j.post ns pops)
          (fun x hx => by
            rcases hset _ _ _ x hx with h | ⟨y, hy, e⟩
            · exact hpops x h
            · rw [e]; exact ⟨(hpops y hy).1, hns2⟩)
          (fun x hx => by rw [hset2]; exact hjs x (List.mem_cons_of_mem _ hx))
        refine ⟨(q.1, { j with body := scaleSyns (255 / totalMax j.body t) j.body } :: q.2), ?_⟩
        unfold quantizeLoop
        rw [hone]
        simp only [Outcome.bind, hq]
  obtain ⟨q, hq⟩ := key n.projections n.populations hpop (fun j hj => ⟨(hproj j hj).1, by
    obtain ⟨p, hp, e⟩ := (hproj j hj).2
    exact List.mem_map.2 ⟨p, hp, e⟩⟩)
  exact ⟨⟨q.1, q.2⟩, by unfold quantize; rw [hq]; rfl⟩

/-! ## C157: what a quantised network computes -/

/-- The threshold of a neuron. -/
def threshold (m : Neuron F R) : F := (m.activation : F) + m.additional

/-- **C157.**  Quantisation scales weights and thresholds together: for each population there is a factor by which its thresholds and the weights of all
projections that end in it were multiplied; weights are off by at most 1/2, thresholds by less than 1. -/
def C157_statement (F R S : Type) [Field F] [LinearOrder F] [FloorRing F] : Prop :=
  ∀ (nan : F) (altai : Nat) (n n' : Network (List (Neuron F R)) (List (Syn F S))), quantize nan altai n = .ok n' → (∀ p ∈ n.populations, p.body ≠ []) →
    ∀ p p', p ∈ n.populations → n.getPopulation p.uid = .ok p → n'.getPopulation p.uid = .ok p' → ∃ c : F, 0 < c ∧
      (∀ (k : Nat) (m m' : Neuron F R), p.body[k]? = some m → p'.body[k]? = some m' → |threshold m' - c * threshold m| < 1) ∧
      (∀ (i : Nat) (j j' : ProjEntity (List (Syn F S))), n.projections[i]? = some j → n'.projections[i]? = some j' → j.post = p.uid →
        ∀ (k : Nat) (s s' : Syn F S), j.body[k]? = some s → j'.body[k]? = some s' → |s'.weight - c * s.weight| ≤ 1 / 2)

/-- It does for a population in which one projection ends. -/
theorem C157_scaled_partial (nan : F) (altai : Nat) (n n' : Network (List (Neuron F R)) (List (Syn F S))) (h : quantize nan altai n = .ok n')
    (i : Nat) (j : ProjEntity (List (Syn F S))) (hj : n.projections[i]? = some j) (p : PopEntity (List (Neuron F R)))
    (hp : n.getPopulation j.post = .ok p) (hne : p.body ≠ [])
    (hone : ∀ (i' : Nat) (j' : ProjEntity (List (Syn F S))), n.projections[i']? = some j' → j'.post = j.post → i' = i) :
    ∃ (c : F) (j' : ProjEntity (List (Syn F S))) (p' : PopEntity (List (Neuron F R))), 0 < c ∧ n'.projections[i]? = some j' ∧ n'.getPopulation j.post = .ok p' ∧
      j' = { j with body := j'.body } ∧ j'.body.length = j.body.length ∧ p' = { p with body := p'.body } ∧ p'.body.length = p.body.length ∧
      (∀ (k : Nat) (s s' : Syn F S), j.body[k]? = some s → j'.body[k]? = some s' → s'.rest = s.rest ∧ |s'.weight - c * s.weight| ≤ 1 / 2) ∧
      (∀ (k : Nat) (m m' : Neuron F R), p.body[k]? = some m → p'.body[k]? = some m' →
        m'.rest = m.rest ∧ m'.additional = c * m.additional ∧ (m'.activation : F) ≤ c * m.activation ∧ c * m.activation < (m'.activation : F) + 1 ∧
        |threshold m' - c * threshold m| < 1) := by
  have pick_of : Lemmas.Infer.pick j.post n.populations = some p := by
    unfold Network.getPopulation findVariant at hp
    unfold Lemmas.Infer.pick
    cases e : n.populations.find? (fun x => x.uid == j.post) with
    | none => rw [e] at hp; cases hp
    | some x => rw [e] at hp; cases hp; rfl
  unfold quantize at h
  cases e : quantizeLoop nan altai n.projections n.populations with
  | throw w => rw [e] at h; cases h
  | ub => rw [e] at h; cases h
  | ok q =>
    rw [e] at h
    cases h
    have hi := (List.getElem?_eq_some_iff.1 hj).1
    have hab : n.projections = n.projections.take i ++ j :: n.projections.drop (i + 1) := by
      have h1 := (List.take_append_drop i n.projections).symm
      rw [List.drop_eq_getElem_cons hi, (List.getElem?_eq_some_iff.1 hj).2] at h1
      exact h1
    rw [hab] at e
    obtain ⟨p1, p2, a', j', b', h1, h2, h3, h4, h5⟩ := Lemmas.Infer.quantizeLoop_split _ j _ n.populations q.1 q.2 e
    have hoth1 : ∀ x ∈ n.projections.take i, j.post ≠ x.post := by
      intro x hx ex
      obtain ⟨k, hk⟩ := List.mem_iff_getElem?.1 hx
      have hlt := (List.getElem?_eq_some_iff.1 hk).1
      rw [List.getElem?_take] at hk
      split at hk
      · rename_i hki
        have := hone k x hk ex.symm
        omega
      · cases hk
    have hoth2 : ∀ x ∈ n.projections.drop (i + 1), j.post ≠ x.post := by
      intro x hx ex
      obtain ⟨k, hk⟩ := List.mem_iff_getElem?.1 hx
      rw [List.getElem?_drop] at hk
      have := hone _ x hk ex.symm
      omega
    have hq1 := Lemmas.Infer.quantizeLoop_keeps j.post (fun o => o = some p) _ n.populations p1 a' h1
      (fun x hx l l' x' hx' hz => by rw [Lemmas.Infer.quantizeOne_other hx' j.post (hoth1 x hx)]; exact hz) pick_of
    obtain ⟨p0, t, hp0, _, ht, hcase⟩ := Lemmas.Infer.quantizeOne_ok h2
    rw [hq1] at hp0
    cases hp0
    rcases hcase with hbad | ⟨hT, ns, hs, ep2, ej⟩
    · exact absurd hbad.2.1 hne
    have hq2 : Lemmas.Infer.pick j.post p2 = some { p with body := ns } := by
      rw [ep2, Lemmas.Infer.pick_set, if_pos rfl, hq1]; rfl
    have hq3 := Lemmas.Infer.quantizeLoop_keeps j.post (fun o => o = some { p with body := ns }) _ p2 q.1 b' h3
      (fun x hx l l' x' hx' hz => by rw [Lemmas.Infer.quantizeOne_other hx' j.post (hoth2 x hx)]; exact hz) hq2
    have hlen : a'.length = i := by rw [h5, List.length_take]; omega
    obtain ⟨hl, hg⟩ := Lemmas.Infer.scaleNeurons_ok _ _ _ hs
    have hc : (0 : F) < 255 / totalMax j.body t := by positivity
    refine ⟨255 / totalMax j.body t, j', { p with body := ns }, hc, ?_, ?_, ?_, ?_, rfl, hl, ?_, ?_⟩
    · show q.2[i]? = some j'
      rw [h4, List.getElem?_append_right (by omega), hlen, Nat.sub_self]; rfl
    · show Network.getPopulation ⟨q.1, q.2⟩ j.post = _
      unfold Network.getPopulation findVariant
      have : q.1.find? (fun x => x.uid == j.post) = some { p with body := ns } := hq3
      simp only [this]
    · rw [ej]
    · rw [ej]; show (scaleSyns _ j.body).length = _; unfold scaleSyns; rw [List.length_map]
    · intro k s s' hk hk'
      rw [ej] at hk'
      have hk' : (scaleSyns (255 / totalMax j.body t) j.body)[k]? = some s' := hk'
      unfold scaleSyns at hk'
      rw [List.getElem?_map, hk] at hk'
      cases hk'
      refine ⟨rfl, ?_⟩
      have := Lemmas.Infer.round_near (s.weight * (255 / totalMax j.body t))
      rwa [mul_comm (255 / totalMax j.body t) s.weight]
    · intro k m m' hk hk'
      obtain ⟨v, hv, ev⟩ := hg k m hk
      have hk' : ns[k]? = some m' := hk'
      rw [ev] at hk'
      cases hk'
      obtain ⟨b1, b2⟩ := Lemmas.Infer.toU16_ok hv (by positivity)
      rw [mul_comm _ (255 / totalMax j.body t)] at b1 b2
      refine ⟨rfl, mul_comm _ _, b1, b2, ?_⟩
      unfold threshold
      show |((v : Nat) : F) + m.additional * (255 / totalMax j.body t) - _| < 1
      have : ((v : Nat) : F) + m.additional * (255 / totalMax j.body t) - 255 / totalMax j.body t * ((m.activation : F) + m.additional) =
          (v : F) - 255 / totalMax j.body t * m.activation := by ring
      rw [this, abs_lt]
      constructor <;> linarith

/-- So a neuron of such a population that hears `ks` synapses at once, at rest and without leakage, is decided the same way, unless the sum of the weights is
within the rounding of its threshold. -/
theorem C157_decision (c : F) (hc : 0 < c) (ws ws' : List F) (th th' : F) (hth : |th' - c * th| < 1) (hlen : ws'.length = ws.length)
    (hw : ∀ (k : Nat) (w w' : F), ws[k]? = some w → ws'[k]? = some w' → |w' - c * w| ≤ 1 / 2) :
    (th + ((ws.length : F) / 2 + 1) / c ≤ ws.sum → th' ≤ ws'.sum) ∧ (ws.sum ≤ th - ((ws.length : F) / 2 + 1) / c → ws'.sum < th') := by
  have key : ∀ (ws ws' : List F), ws'.length = ws.length → (∀ (k : Nat) (w w' : F), ws[k]? = some w → ws'[k]? = some w' → |w' - c * w| ≤ 1 / 2) →
      |ws'.sum - c * ws.sum| ≤ (ws.length : F) / 2 := by
    intro ws
    induction ws with
    | nil => intro ws' hl _; rw [List.eq_nil_of_length_eq_zero hl]; simp
    | cons w ws ih =>
      intro ws' hl hw
      cases ws' with
      | nil => cases hl
      | cons w' ws' =>
        have h1 := hw 0 w w' rfl rfl
        have h2 := ih ws' (by simpa using hl) (fun k a b ha hb => hw (k + 1) a b (by simpa using ha) (by simpa using hb))
        rw [List.sum_cons, List.sum_cons, List.length_cons]
        push_cast
        rw [abs_le] at h1 h2 ⊢
        constructor <;> linarith
  have hs := abs_le.1 (key ws ws' hlen hw)
  have ht := abs_lt.1 hth
  constructor
  · intro h
    have := mul_le_mul_of_nonneg_left h (le_of_lt hc)
    have e : c * (th + ((ws.length : F) / 2 + 1) / c) = c * th + ((ws.length : F) / 2 + 1) := by field_simp
    rw [e] at this
    linarith
  · intro h
    have := mul_le_mul_of_nonneg_left h (le_of_lt hc)
    have e : c * (th - ((ws.length : F) / 2 + 1) / c) = c * th - ((ws.length : F) / 2 + 1) := by field_simp
    rw [e] at this
    linarith

end Q

namespace InferEx
/-- A network of one neuron with a fractional additional threshold. -/
def fractional : Network (List (Neuron ℚ Unit)) (List (Syn ℚ Unit)) := ⟨[⟨1, 0, [⟨100, 9 / 10, ()⟩]⟩], [⟨2, 0, 1, 0, [⟨100, ()⟩]⟩]⟩
/-- One neuron of threshold 100, and two projections. -/
def two : Network (List (Neuron ℚ Unit)) (List (Syn ℚ Unit)) := ⟨[⟨1, 0, [⟨100, 0, ()⟩]⟩], [⟨2, 0, 1, 0, [⟨1000, ()⟩]⟩, ⟨3, 0, 1, 0, [⟨50, ()⟩]⟩]⟩

example : quantize 0 0 fractional = .ok ⟨[⟨1, 0, [⟨255, 459 / 200, ()⟩]⟩], [⟨2, 0, 1, 0, [⟨255, ()⟩]⟩]⟩ := by decide +kernel
/-- One spike of the weak projection did not reach the threshold; now it is twice the threshold. -/
example : quantize 0 0 two = .ok ⟨[⟨1, 0, [⟨127, 0, ()⟩]⟩], [⟨2, 0, 1, 0, [⟨255, ()⟩]⟩, ⟨3, 0, 1, 0, [⟨255, ()⟩]⟩]⟩ := by decide +kernel
end InferEx

theorem C156_range_refuted : ¬ C156_statement ℚ Unit Unit := by
  intro h
  have h1 := (h 0 0 InferEx.fractional _ (by decide +kernel : quantize 0 0 InferEx.fractional = .ok ⟨[⟨1, 0, [⟨255, 459 / 200, ()⟩]⟩], [⟨2, 0, 1, 0, [⟨255, ()⟩]⟩]⟩)
    (by decide)).2 _ (List.mem_singleton.2 rfl) ⟨1, 0, [⟨255, 459 / 200, ()⟩]⟩ rfl ⟨255, 459 / 200, ()⟩ (List.mem_singleton.2 rfl)
  obtain ⟨z, e, hz⟩ := h1
  have h2 : ((z : Int) : ℚ) ≤ 255 := by
    have : z ≤ 255 := by omega
    exact_mod_cast this
  rw [← e] at h2
  norm_num at h2

theorem C157_scaled_refuted : ¬ C157_statement ℚ Unit Unit := by
  intro h
  obtain ⟨c, hc, h1, h2⟩ := h 0 0 InferEx.two _ (by decide +kernel : quantize 0 0 InferEx.two =
      .ok ⟨[⟨1, 0, [⟨127, 0, ()⟩]⟩], [⟨2, 0, 1, 0, [⟨255, ()⟩]⟩, ⟨3, 0, 1, 0, [⟨255, ()⟩]⟩]⟩) (by decide)
    ⟨1, 0, [⟨100, 0, ()⟩]⟩ ⟨1, 0, [⟨127, 0, ()⟩]⟩ (List.mem_singleton.2 rfl) rfl rfl
  have a := h2 0 ⟨2, 0, 1, 0, [⟨1000, ()⟩]⟩ ⟨2, 0, 1, 0, [⟨255, ()⟩]⟩ rfl rfl rfl 0 ⟨1000, ()⟩ ⟨255, ()⟩ rfl rfl
  have b := h2 1 ⟨3, 0, 1, 0, [⟨50, ()⟩]⟩ ⟨3, 0, 1, 0, [⟨255, ()⟩]⟩ rfl rfl rfl 0 ⟨50, ()⟩ ⟨255, ()⟩ rfl rfl
  simp only at a b
  rw [abs_le] at a b
  linarith [a.1, a.2, b.1, b.2]

/-! ## C158: the resource of a weight -/

section C158
variable {F : Type} [Field F] [LinearOrder F] [IsStrictOrderedRing F]
open Knp.Stdp

/-- **C158.**  For every weight from the minimum to just below the maximum, given in either order, `resource_from_weight` returns the resource with which a
synapse has this weight; for other weights it throws. -/
def C158_statement (F : Type) [Field F] [LinearOrder F] : Prop := ∀ (o : Stdp.Ops F) (r : SynRule F) (eps w : F), 0 < eps → min r.wMin r.wMax ≤ w → w < max r.wMin r.wMax - eps →
  ∃ x, resourceFromWeight eps w r.wMin r.wMax = .ok x ∧ weightOf o { r with resource := x } = w

/-- It does for a minimum that is not above the maximum; the resource is not negative, and it is the only such one. -/
theorem C158_inverse_partial (o : Stdp.Ops F) (r : SynRule F) (eps w : F) (he : 0 < eps) (hle : r.wMin ≤ r.wMax) :
    (r.wMin ≤ w → w < r.wMax - eps → ∃ x, resourceFromWeight eps w r.wMin r.wMax = .ok x ∧ 0 ≤ x ∧ weightOf o { r with resource := x } = w ∧
      ∀ y, 0 ≤ y → weightOf o { r with resource := y } = w → y = x) ∧
    (¬ (r.wMin ≤ w ∧ w < r.wMax - eps) → ∃ what, resourceFromWeight eps w r.wMin r.wMax = .throw what) := by
  unfold resourceFromWeight
  rw [if_neg (not_lt.2 hle)]
  constructor
  · intro h1 h2
    have hn : ¬ (w < r.wMin ∨ r.wMax - eps ≤ w) := by
      rintro (h | h)
      · exact absurd h1 (not_le.2 h)
      · exact absurd h2 (not_lt.2 h)
    have hd : 0 < (r.wMax - r.wMin) - (w - r.wMin) := by linarith
    have hD : 0 < r.wMax - r.wMin := by linarith
    have h0 : 0 ≤ (w - r.wMin) * (r.wMax - r.wMin) / ((r.wMax - r.wMin) - (w - r.wMin)) :=
      div_nonneg (mul_nonneg (by linarith) (le_of_lt hD)) (le_of_lt hd)
    refine ⟨(w - r.wMin) * (r.wMax - r.wMin) / ((r.wMax - r.wMin) - (w - r.wMin)), if_neg hn, h0, ?_, ?_⟩
    · unfold weightOf divF
      show r.wMin + (if _ = 0 then _ else _) = w
      rw [max_eq_left h0]
      generalize hx : (w - r.wMin) * (r.wMax - r.wMin) / ((r.wMax - r.wMin) - (w - r.wMin)) = x at *
      have hs : 0 < r.wMax - r.wMin + x := by linarith
      rw [if_neg (ne_of_gt hs)]
      have hx' : x * ((r.wMax - r.wMin) - (w - r.wMin)) = (w - r.wMin) * (r.wMax - r.wMin) := by
        rw [← hx]; field_simp
      have : (r.wMax - r.wMin) * x / (r.wMax - r.wMin + x) = w - r.wMin := by
        rw [div_eq_iff (ne_of_gt hs)]; linarith
      rw [this]; ring
    · intro y hy hyw
      unfold weightOf divF at hyw
      simp only at hyw
      rw [max_eq_left hy] at hyw
      have hs : 0 < r.wMax - r.wMin + y := by linarith
      rw [if_neg (ne_of_gt hs)] at hyw
      have h3 : (r.wMax - r.wMin) * y / (r.wMax - r.wMin + y) = w - r.wMin := by linarith
      rw [div_eq_iff (ne_of_gt hs)] at h3
      rw [eq_div_iff (ne_of_gt hd)]
      linarith
  · intro h
    refine ⟨_, if_pos ?_⟩
    by_contra hn
    rw [not_or] at hn
    exact h ⟨not_lt.1 hn.1, not_le.1 hn.2⟩

/-- With the limits the other way round the synapse gets another weight. -/
theorem C158_inverse_refuted : ¬ C158_statement ℚ := by
  intro h
  obtain ⟨x, hx, hw⟩ := h ⟨id, id, id⟩ ⟨0, 4, 0, 0, 0, 0, false, false⟩ (1 / 1000000) 1 (by decide +kernel) (by decide +kernel) (by decide +kernel)
  have e : resourceFromWeight (1 / 1000000 : ℚ) 1 4 0 = .ok (4 / 3) := by decide +kernel
  have hx' : resourceFromWeight (1 / 1000000 : ℚ) 1 4 0 = .ok x := hx
  rw [e] at hx'
  cases hx'
  revert hw
  decide +kernel

example : resourceFromWeight (1 / 1000000 : ℚ) 1 0 4 = .ok (4 / 3) ∧
    weightOf (⟨id, id, id⟩ : Stdp.Ops ℚ) ⟨4 / 3, 0, 4, 0, 0, 0, false, false⟩ = 1 := by decide +kernel

end C158
end Knp.Props
