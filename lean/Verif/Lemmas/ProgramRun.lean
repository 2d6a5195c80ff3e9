import Verif.Lemmas.Program
import Verif.Lemmas.LearnMulti

/-! # Lemmas: a run of a program -/

namespace Knp.Prog
open Knp Knp.Bus Knp.Spec Knp.Sys Knp.Learn

variable {σ P J F : Type}

/-! ## The trace -/

theorem waiting_snoc (L : Layout) (tr : List (Item F)) (it : Item F) :
    waiting L (tr ++ [it]) = (waiting L tr).after L it := by
  unfold waiting; rw [List.foldl_append]; rfl

theorem bufferFrom_append (L : Layout) (n : Nat) (xs : List UID) (b c a : List (Item F)) (buf : List SpikeMessage) :
    bufferFrom L n xs a buf (b ++ c) = bufferFrom L n xs (a ++ b) (bufferFrom L n xs a buf b) c := by
  induction b generalizing a buf with
  | nil => simp [bufferFrom]
  | cons it b ih => simp only [List.cons_append, bufferFrom, ih]; simp

theorem bufferOf_snoc (L : Layout) (n : Nat) (xs : List UID) (tr : List (Item F)) (it : Item F) :
    bufferOf L n xs (tr ++ [it]) = bufferAfter L n xs tr (bufferOf L n xs tr) it := by
  unfold bufferOf; rw [bufferFrom_append]; simp [bufferFrom]

theorem externalsFrom_append (L : Layout) (b c a : List (Item F)) :
    externalsFrom L a (b ++ c) = externalsFrom L a b ++ externalsFrom L (a ++ b) c := by
  induction b generalizing a with
  | nil => simp [externalsFrom]
  | cons it b ih => cases it <;> (simp only [List.cons_append, externalsFrom, ih]; simp)

theorem externals_iter (L : Layout) (tr : List (Item F)) (i : Iter F) :
    externals L (tr ++ [.iter i]) = externals L tr ++ [external L tr i] := by
  unfold externals; rw [externalsFrom_append]; simp [externalsFrom]

theorem externals_halt (L : Layout) (tr : List (Item F)) (t : Nat) (fed : List (List Nat)) :
    externals L (tr ++ [.halt t fed]) = externals L tr := by
  unfold externals; rw [externalsFrom_append]; simp [externalsFrom]

theorem externals_read (L : Layout) (tr : List (Item F)) (n a b : Nat) (got : List SpikeMessage) :
    externals L (tr ++ [.read n a b got]) = externals L tr := by
  unfold externals; rw [externalsFrom_append]; simp [externalsFrom]

theorem iters_append (a b : List (Item F)) : iters (a ++ b) = iters a ++ iters b := by
  unfold iters; rw [List.filterMap_append]

theorem iters_iter (tr : List (Item F)) (i : Iter F) : iters (tr ++ [.iter i]) = iters tr ++ [i] := by
  rw [iters_append]; rfl

theorem iters_halt (tr : List (Item F)) (t : Nat) (fed : List (List Nat)) : iters (tr ++ [.halt t fed]) = iters tr := by
  rw [iters_append]; simp [iters]

theorem iters_read (tr : List (Item F)) (n a b : Nat) (got : List SpikeMessage) : iters (tr ++ [.read n a b got]) = iters tr := by
  rw [iters_append]; simp [iters]

/-! ## Reading -/

theorem partition_split {α : Type} {p : α → Bool} {l : List α} {n : Nat} (h : Io.partitionPoint p l = .ok n) :
    l.take n = l.filter p ∧ l.drop n = l.filter (fun x => !p x) ∧ n = (l.takeWhile p).length := by
  unfold Io.partitionPoint at h
  split at h
  · cases h
  · rename_i hu
    simp only [Outcome.ok.injEq] at h
    subst h
    have hd : ∀ x ∈ l.dropWhile p, p x = false := by
      intro x hx
      cases hp : p x with
      | false => rfl
      | true => exact absurd (List.any_eq_true.2 ⟨x, hx, hp⟩) hu
    have ht : ∀ x ∈ l.takeWhile p, p x = true := fun x hx => List.all_eq_true.1 List.all_takeWhile x hx
    have hl : l.takeWhile p ++ l.dropWhile p = l := List.takeWhile_append_dropWhile
    refine ⟨?_, ?_, rfl⟩
    · generalize l.takeWhile p = a, l.dropWhile p = b at *
      subst hl
      rw [List.take_left', List.filter_append, List.filter_eq_self.2 ht, List.filter_eq_nil_iff.2, List.append_nil]
      · intro x hx; simp [hd x hx]
      · rfl
    · generalize l.takeWhile p = a, l.dropWhile p = b at *
      subst hl
      rw [List.drop_left', List.filter_append, List.filter_eq_nil_iff.2, List.filter_eq_self.2, List.nil_append]
      · intro x hx; simp [hd x hx]
      · intro x hx; simp [ht x hx]
      · rfl

theorem filter_split {α : Type} (p : α → Bool) (l : List α) (h : l.filter p ++ l.filter (fun x => !p x) = l) (q : α → Bool)
    (hq : ∀ x ∈ l, p x = true → q x = true) : l.filter p ++ (l.filter (fun x => !p x)).filter q = l.filter q := by
  conv => rhs; rw [← h]
  rw [List.filter_append]
  congr 1
  rw [List.filter_filter]
  apply List.filter_congr
  intro x hx
  cases hp : p x with
  | false => simp
  | true => simp [hq x hx hp]

/-- Whatever the buffer, a read that succeeds returns the window and leaves the rest. -/
theorem readSome_ok {maxSize a b : Nat} {c c1 : Io.OutputChannel} {got : List SpikeMessage}
    (h : c.readSome maxSize a b = .ok (c1, got)) :
    got = c.buffer.filter (fun x => decide (a ≤ x.header.sendTime ∧ x.header.sendTime ≤ b)) ∧
    c1.buffer = c.buffer.filter (fun x => !decide (a ≤ x.header.sendTime ∧ x.header.sendTime ≤ b)) := by
  unfold Io.OutputChannel.readSome at h
  split at h
  · cases h
  · cases h1 : Io.partitionPoint (fun m : SpikeMessage => decide (m.header.sendTime < a)) c.buffer with
    | throw w => rw [h1] at h; cases h
    | ub => rw [h1] at h; cases h
    | ok n1 =>
      cases h2 : Io.partitionPoint (fun m : SpikeMessage => !decide (b < m.header.sendTime)) c.buffer with
      | throw w => rw [h1, h2] at h; cases h
      | ub => rw [h1, h2] at h; cases h
      | ok n2 =>
        rw [h1, h2] at h
        simp only at h
        split at h
        · rename_i hle
          simp only [Outcome.ok.injEq, Prod.mk.injEq] at h
          obtain ⟨t1, d1, e1⟩ := partition_split h1
          obtain ⟨t2, d2, e2⟩ := partition_split h2
          -- everything below the window is not above it
          have hsub : ∀ x ∈ c.buffer, x.header.sendTime < a → ¬ b < x.header.sendTime := by
            intro x hx hxa
            have hmem : x ∈ c.buffer.take n1 := by rw [t1]; simp [hx, hxa]
            have hmem2 : x ∈ c.buffer.take n2 := by
              have := List.take_prefix_take_left (l := c.buffer) hle
              exact this.subset hmem
            rw [t2] at hmem2
            simpa using (List.mem_filter.1 hmem2).2
          constructor
          · rw [← h.2, List.drop_take]
            have : (c.buffer.drop n1).take (n2 - n1) = (c.buffer.drop n1).filter (fun x => !decide (b < x.header.sendTime)) := by
              have hcat : (c.buffer.take n1) ++ (c.buffer.drop n1).take (n2 - n1) = c.buffer.take n2 := by
                have := List.take_add (l := c.buffer) (i := n1) (j := n2 - n1)
                rw [Nat.add_sub_cancel' hle] at this
                exact this.symm
              have hcat2 : (c.buffer.take n1).filter (fun x => !decide (b < x.header.sendTime)) ++
                  (c.buffer.drop n1).filter (fun x => !decide (b < x.header.sendTime)) = c.buffer.take n2 := by
                rw [← List.filter_append, List.take_append_drop, t2]
              have hself : (c.buffer.take n1).filter (fun x => !decide (b < x.header.sendTime)) = c.buffer.take n1 := by
                rw [List.filter_eq_self]
                intro x hx
                rw [t1] at hx
                have := List.mem_filter.1 hx
                have := hsub x this.1 (by simpa using this.2)
                simpa using this
              rw [hself] at hcat2
              rw [← hcat] at hcat2
              exact (List.append_cancel_left hcat2).symm
            rw [this, d1, List.filter_filter]
            apply List.filter_congr
            intro x _
            rw [Bool.eq_iff_iff]
            simp only [Bool.and_eq_true, Bool.not_eq_true', decide_eq_false_iff_not, decide_eq_true_eq]
            omega
          · rw [← h.1]
            simp only
            rw [d2]
            have ht : c.buffer.take n1 = (c.buffer.take n1).filter (fun x => !decide (a ≤ x.header.sendTime ∧ x.header.sendTime ≤ b)) := by
              symm; rw [List.filter_eq_self]
              intro x hx
              rw [t1] at hx
              have := (List.mem_filter.1 hx).2
              simp only [decide_eq_true_eq] at this
              simp only [Bool.not_eq_true', decide_eq_false_iff_not]
              omega
            have hd : (c.buffer.drop n1).filter (fun x => !decide (a ≤ x.header.sendTime ∧ x.header.sendTime ≤ b)) =
                c.buffer.filter (fun x => !!decide (b < x.header.sendTime)) := by
              rw [d1, List.filter_filter]
              apply List.filter_congr
              intro x hx
              have := hsub x hx
              rw [Bool.eq_iff_iff]
              simp only [Bool.and_eq_true, Bool.not_eq_true', decide_eq_false_iff_not, Bool.not_not, decide_eq_true_eq]
              omega
            rw [← hd]
            conv => lhs; rw [ht]
            rw [← List.filter_append, List.take_append_drop]
        · cases h

/-! ## The invariant -/

/-- An endpoint that listens and has nothing. -/
def idle (d : MsgKind × UID × List UID) : Endpoint F := listening d [] []

/-- The endpoints between two actions. -/
def epsOf (L : Layout) (W : Waiting) : List (Endpoint F) :=
  W.channels.map (fun ms => talking (ms.map .spike)) ++ L.outputs.map (fun o => idle (.spike, o.1, o.2)) ++
    List.zipWith (fun h ms => listening (.spike, h.uid, h.senders) [] (ms.map .spike)) L.handlers W.handlers ++
    L.observers.map (fun b => idle (b.kind, b.uid, b.senders))

/-- Consecutive steps of a backend, each after the calls of the rest of the program since the one before. -/
def after (step : Stepper P J F) : Learn.State P J F → List (List (Op F)) → Outcome (Learn.State P J F × List (StepOut F))
  | s, [] => .ok (s, [])
  | s, env :: envs =>
    match step { s with world := s.world.run env } with
    | .throw w => .throw w
    | .ub => .ub
    | .ok (s1, o) =>
      match after step s1 envs with
      | .ok (s2, os) => .ok (s2, o :: os)
      | .throw w => .throw w
      | .ub => .ub

/-- What holds between two actions after the run `tr`: `sB` is the backend after its last step, `env` the calls since. -/
structure Inv (step : Stepper P J F) (m : Machine P J F) (H : Hearing) (L : Layout) (s0 : Learn.State P J F) (s : State σ P J F) (tr : List (Item F))
    (envs : List (List (Op F))) (sB : Learn.State P J F) (env : List (Op F)) (pending : List (SynapticImpactMessage F))
    (e0 : Endpoint F) : Prop where
  between : Between m H L.chans sB pending e0
  past : after step s0 envs = .ok (sB, (iters tr).map (·.out))
  exts : envs.map (extOf L.chans) = (externals L tr).map (fun l => l.map Message.spike)
  foreigns : ∀ en ∈ envs, ∀ op ∈ en, Foreign L.chans op
  core : s.core = { sB with world := sB.world.run env }
  foreign : ∀ op ∈ env, Foreign L.chans op
  eps : Eps s.core.world (epsOf L (waiting L tr))
  lenC : (waiting L tr).channels.length = L.inputs.length
  lenH : (waiting L tr).handlers.length = L.handlers.length
  popUids : (sB.pops.map m.popUid).Nodup
  projUids : (sB.projs.map m.projUid).Nodup
  time : s.core.step = (iters tr).length
  outsLen : s.outs.length = L.outputs.length
  outs : ∀ (n : Nat) (o : UID × List UID), L.outputs[n]? = some o → s.outs[n]? = some ⟨bufferOf L n o.2 tr⟩

/-- What holds of an item of a run after `tr`. -/
def ItemOk (L : Layout) (tr : List (Item F)) : Item F → Prop
  | .iter i => i.time = (iters tr).length ∧ i.fed.length = L.inputs.length ∧
      i.handled.map (·.1) = L.handlers.map (fun h => (spikesDuring L tr i).filter (fun x => decide (x.header.senderUid ∈ h.senders))) ∧
      i.observed = L.observers.map (fun b => (busDuring L tr i).filter (fun x => (x.kind == b.kind) && decide (x.sender ∈ b.senders)))
  | .halt t fed => t = (iters tr).length ∧ fed.length = L.inputs.length
  | .read n a b got => ∃ o, L.outputs[n]? = some o ∧
      got = (bufferOf L n o.2 tr).filter (fun x => decide (a ≤ x.header.sendTime ∧ x.header.sendTime ≤ b))

theorem after_snoc {step : Stepper P J F} (envs : List (List (Op F))) (env : List (Op F)) : ∀ {s0 sB s1 : Learn.State P J F}
    {os : List (StepOut F)} {o : StepOut F}, after step s0 envs = .ok (sB, os) →
    step { sB with world := sB.world.run env } = .ok (s1, o) → after step s0 (envs ++ [env]) = .ok (s1, os ++ [o]) := by
  induction envs with
  | nil =>
    intro s0 sB s1 os o h1 h2
    simp only [after, Outcome.ok.injEq, Prod.mk.injEq] at h1
    obtain ⟨rfl, rfl⟩ := h1
    simp [after, h2]
  | cons en envs ih =>
    intro s0 sB s1 os o h1 h2
    unfold after at h1
    rw [List.cons_append]
    unfold after
    cases h3 : step { s0 with world := s0.world.run en } with
    | throw w => rw [h3] at h1; cases h1
    | ub => rw [h3] at h1; cases h1
    | ok x =>
      obtain ⟨sx, ox⟩ := x
      rw [h3] at h1
      simp only at h1 ⊢
      cases h4 : after step sx envs with
      | throw w => rw [h4] at h1; cases h1
      | ub => rw [h4] at h1; cases h1
      | ok y =>
        obtain ⟨sy, oy⟩ := y
        rw [h4] at h1
        simp only [Outcome.ok.injEq, Prod.mk.injEq] at h1
        obtain ⟨rfl, rfl⟩ := h1
        rw [ih h4 h2]
        rfl

theorem after_single (m : Machine P J F) (envs : List (List (Op F))) : ∀ s0, after (stepSingle m) s0 envs = runSingle m s0 envs := by
  induction envs with
  | nil => intro s0; rfl
  | cons en envs ih =>
    intro s0
    unfold after Learn.runSingle
    cases stepSingle m { s0 with world := s0.world.run en } with
    | throw w => rfl
    | ub => rfl
    | ok x => simp only [ih]; cases runSingle m x.1 envs <;> rfl

/-- The calls of the rest of the program with the schedules of the steps from `t` on. -/
def scheduled {α : Type} (sched : Nat → Learn.Sched) : Nat → List α → List (α × Learn.Sched)
  | _, [] => []
  | t, env :: envs => (env, sched t) :: scheduled sched (t + 1) envs

theorem scheduled_fst {α : Type} (sched : Nat → Learn.Sched) : ∀ (envs : List α) (t : Nat), (scheduled sched t envs).map (·.1) = envs := by
  intro envs
  induction envs with
  | nil => intro t; rfl
  | cons e envs ih => intro t; simp [scheduled, ih]

theorem scheduled_eq {α : Type} (sched : Nat → Learn.Sched) : ∀ (envs : List α) (t : Nat),
    scheduled sched t envs = envs.mapIdx (fun i e => (e, sched (t + i))) := by
  intro envs
  induction envs with
  | nil => intro t; rfl
  | cons e envs ih =>
    intro t
    simp only [scheduled, List.mapIdx_cons, ih, Nat.add_zero]
    congr 2
    funext i e
    rw [Nat.add_assoc, Nat.add_comm 1]

theorem scheduled_map {α β : Type} (f : α → β) (sched : Nat → Learn.Sched) : ∀ (envs : List α) (t : Nat),
    (scheduled sched t envs).map (fun e => (f e.1, e.2)) = scheduled sched t (envs.map f) := by
  intro envs
  induction envs with
  | nil => intro t; rfl
  | cons e envs ih => intro t; simp [scheduled, ih]

theorem stepMulti_step {m : Machine P J F} {th : Threads P J F} {s s1 : Learn.State P J F} {sc : Learn.Sched} {o : StepOut F}
    (h : stepMulti m th s sc = some (.ok (s1, o))) : s1.step = s.step + 1 := by
  unfold Learn.stepMulti at h
  split at h
  · cases h
  · split at h
    · cases h
    · cases h
    · cases h
    · split at h
      · cases h
      · cases h
      · cases h
      · simp only at h
        split at h
        · cases h
        · split at h
          · cases h
          · simp only [Option.some.injEq, Outcome.ok.injEq, Prod.mk.injEq] at h
            rw [← h.1]

theorem stepThreads_ok {m : Machine P J F} {th : Threads P J F} {sched : Nat → Learn.Sched} {s s1 : Learn.State P J F} {o : StepOut F}
    (h : stepThreads m th sched s = .ok (s1, o)) : stepMulti m th s (sched s.step) = some (.ok (s1, o)) := by
  unfold stepThreads at h
  split at h
  · cases h
  · rename_i r hr; rw [hr, h]

theorem after_threads {m : Machine P J F} {th : Threads P J F} {sched : Nat → Learn.Sched} (envs : List (List (Op F))) :
    ∀ {s0 s1 : Learn.State P J F} {os : List (StepOut F)}, after (stepThreads m th sched) s0 envs = .ok (s1, os) →
    runMulti m th s0 (scheduled sched s0.step envs) = some (.ok (s1, os)) := by
  induction envs with
  | nil => intro s0 s1 os h; simp only [after, Outcome.ok.injEq] at h; rw [← h]; rfl
  | cons en envs ih =>
    intro s0 s1 os h
    unfold after at h
    cases h1 : stepThreads m th sched { s0 with world := s0.world.run en } with
    | throw w => rw [h1] at h; cases h
    | ub => rw [h1] at h; cases h
    | ok x =>
      obtain ⟨sx, o⟩ := x
      have h2 := stepThreads_ok h1
      have hst : sx.step = s0.step + 1 := by have := stepMulti_step h2; exact this
      rw [h1] at h
      simp only at h
      cases h3 : after (stepThreads m th sched) sx envs with
      | throw w => rw [h3] at h; cases h
      | ub => rw [h3] at h; cases h
      | ok y =>
        obtain ⟨sy, oy⟩ := y
        rw [h3] at h
        simp only [Outcome.ok.injEq, Prod.mk.injEq] at h
        obtain ⟨rfl, rfl⟩ := h
        have h4 := ih h3
        rw [hst] at h4
        unfold scheduled Learn.runMulti
        simp only at h2 ⊢
        rw [h2]
        simp only
        rw [h4]

/-! ## What a program needs of a backend -/

/-- A step of the backend when only spikes come from outside, as the rest of the program sees it. -/
structure Serves (step : Stepper P J F) (m : Machine P J F) (H : Hearing) (chans : Nat) : Prop where
  ok : ∀ {sB : Learn.State P J F} {pending : List (SynapticImpactMessage F)} {e0 : Endpoint F} {env : List (Op F)}
    {s1 : Learn.State P J F} {o : StepOut F}, Between m H chans sB pending e0 → (sB.pops.map m.popUid).Nodup →
    (sB.projs.map m.projUid).Nodup → (∀ op ∈ env, Foreign chans op) → impactsIn (extOf chans env) = [] →
    step { sB with world := sB.world.run env } = .ok (s1, o) →
    (∃ e1, Between m H chans s1 o.impacts e1) ∧ s1.step = sB.step + 1 ∧ s1.pops.map m.popUid = sB.pops.map m.popUid ∧
    s1.projs.map m.projUid = sB.projs.map m.projUid ∧
    ∀ i, i ≠ 0 → s1.world.endpoint i = (((sB.world.run env).endpoint i).map (routed (extOf chans env))).map
      (fun e => routed (o.impacts.map .impact) (routed (o.spikes.map .spike) e))

/-- Everything waiting, as the bus collects it. -/
def outOf (W : Waiting) : List SpikeMessage := W.channels.flatten ++ W.handlers.flatten

theorem flatMap_range {α : Type} (l : List (List α)) : ∀ n, l.length = n → (List.range n).flatMap (fun e => (l[e]?).getD []) = l.flatten := by
  induction l with
  | nil => intro n h; simp at h; subst h; rfl
  | cons a l ih =>
    intro n h
    cases n with
    | zero => simp at h
    | succ n =>
      rw [List.range_succ_eq_map, List.flatMap_cons, List.flatMap_map, List.flatten_cons]
      congr 1
      simpa using ih n (by simpa using h)

theorem epsOf_out (L : Layout) (W : Waiting) (h : W.handlers.length = L.handlers.length) :
    ((epsOf (F := F) L W).map (·.toSend)).flatten = (outOf W).map .spike := by
  have h1 : (W.channels.map (fun ms => talking (F := F) (ms.map .spike))).map (·.toSend) = W.channels.map (fun ms => ms.map .spike) := by
    rw [List.map_map]; rfl
  have h2 : ((L.outputs.map (fun o => idle (F := F) (.spike, o.1, o.2))).map (·.toSend)).flatten = [] := by
    rw [List.map_map]; simp [idle, listening]
  have h4 : ((L.observers.map (fun b => idle (F := F) (b.kind, b.uid, b.senders))).map (·.toSend)).flatten = [] := by
    rw [List.map_map]; simp [idle, listening]
  have h3 : ∀ (hs : List Handler) (ms : List (List SpikeMessage)), ms.length = hs.length →
      (List.zipWith (fun h ms => listening (F := F) (.spike, h.uid, h.senders) [] (ms.map .spike)) hs ms).map (·.toSend) =
        ms.map (fun ms => ms.map .spike) := by
    intro hs
    induction hs with
    | nil => intro ms hl; simp at hl; subst hl; rfl
    | cons x hs ih =>
      intro ms hl
      cases ms with
      | nil => simp at hl
      | cons y ms => simp only [List.zipWith_cons_cons, List.map_cons, ih ms (by simpa using hl)]; rfl
  unfold epsOf outOf
  rw [List.map_append, List.map_append, List.map_append, List.flatten_append, List.flatten_append, List.flatten_append, h2, h4, h1,
    h3 L.handlers W.handlers h, List.map_append, List.map_flatten, List.map_flatten]
  simp

theorem epsOf_length (L : Layout) (W : Waiting) (h1 : W.channels.length = L.inputs.length)
    (h : W.handlers.length = L.handlers.length) : (epsOf (F := F) L W).length = L.chans := by
  unfold epsOf Layout.chans
  simp [h1, h]
  omega

/-- What the rest of the program sent is what lies in the endpoints. -/
theorem ext_of_eps {L : Layout} {m : Machine P J F} {H : Hearing} {sB : Learn.State P J F} {pending : List (SynapticImpactMessage F)}
    {e0 : Endpoint F} (hb : Between m H L.chans sB pending e0) {env : List (Op F)} (hf : ∀ op ∈ env, Foreign L.chans op)
    {eps : List (Endpoint F)} (he : Eps (sB.world.run env) eps) (hl : eps.length = L.chans) :
    extOf L.chans env = (eps.map (·.toSend)).flatten := by
  obtain ⟨_, _, r3⟩ := foreign_run env hb.ready hf
  rw [← flatMap_range (eps.map (·.toSend)) L.chans (by simp [hl])]
  unfold extOf
  rw [List.flatMap_def, List.flatMap_def]
  congr 1
  apply List.map_congr_left
  intro e hmem
  have hlt : e < L.chans := List.mem_range.1 hmem
  have := r3 (e + 1) (by omega)
  rw [hb.empty (e + 1) (by omega), List.nil_append] at this
  rw [← this]
  unfold outboxOf
  rw [he e, List.getElem?_map]

theorem foreign_mono {a b : Nat} (h : a ≤ b) (op : Op F) (hf : Foreign a op) : Foreign b op := by
  cases op <;> first | exact hf.elim | exact ⟨hf.1, Nat.le_trans hf.2 h⟩

theorem zip_talk (L : Layout) (W : Waiting) (t : Nat) (fed : List (List Nat)) :
    (List.zipWith (· ++ ·) (W.channels.map (fun ms => ms.map Message.spike))
      (List.zipWith (fun u g => (message u t g).map Message.spike) L.inputs fed)).map (talking (F := F)) =
    (List.zipWith (· ++ ·) W.channels (fedBy L t fed)).map (fun ms => talking (ms.map .spike)) := by
  have : List.zipWith (fun u g => (message u t g).map (Message.spike (F := F))) L.inputs fed =
      (fedBy L t fed).map (fun ms => ms.map Message.spike) := by
    unfold fedBy
    rw [List.map_zipWith]
  rw [this, List.zipWith_map, List.map_zipWith, List.map_zipWith]
  simp only [List.map_append]

theorem preStep_spec {step : Stepper P J F} {m : Machine P J F} {H : Hearing} {L : Layout} {s0 : Learn.State P J F} {s : State σ P J F} {tr : List (Item F)}
    {envs : List (List (Op F))} {sB : Learn.State P J F} {env : List (Op F)} {pending : List (SynapticImpactMessage F)}
    {e0 : Endpoint F} (h : Inv step m H L s0 s tr envs sB env pending e0) (c : Code σ F) :
    ∃ u' fed ops, preStep L c s = (⟨{ sB with world := sB.world.run (env ++ ops) }, s.outs, u'⟩, fed) ∧
      fed.length = L.inputs.length ∧ (∀ op ∈ env ++ ops, Foreign L.chans op) ∧
      Eps (sB.world.run (env ++ ops)) (epsOf L ⟨List.zipWith (· ++ ·) (waiting L tr).channels
        (fedBy L s.core.step fed), (waiting L tr).handlers⟩) := by
  have he := h.eps
  unfold epsOf at he
  rw [List.append_assoc, List.append_assoc] at he
  have he' : Eps s.core.world ([] ++ ((waiting L tr).channels.map (fun ms => ms.map Message.spike)).map talking ++
      (L.outputs.map (fun o => idle (.spike, o.1, o.2)) ++
      (List.zipWith (fun h ms => listening (.spike, h.uid, h.senders) [] (ms.map .spike)) L.handlers (waiting L tr).handlers ++
      L.observers.map (fun b => idle (b.kind, b.uid, b.senders))))) := by
    rw [List.nil_append, List.map_map]; exact he
  obtain ⟨w', u', fed, ops, f1, f2, f3, f4, f5⟩ := feed_spec c s.core.step L.inputs _ [] _ s.core.world s.user (by simpa using h.lenC) he'
  have f1' : feed c s.core.step 0 L.inputs s.core.world s.user = ((w', u'), fed) := f1
  have hw : w' = sB.world.run (env ++ ops) := by
    rw [f3, run_append, h.core]
  have hc : ({ s.core with world := w' } : Learn.State P J F) = { sB with world := sB.world.run (env ++ ops) } := by
    rw [h.core, hw]
  refine ⟨u', fed, ops, ?_, f2, ?_, ?_⟩
  · unfold preStep
    simp only [f1', hc]
  · intro op hop
    rcases List.mem_append.1 hop with ho | ho
    · exact h.foreign op ho
    · refine foreign_mono ?_ op (f4 op ho)
      unfold Layout.chans
      simp
      omega
  · rw [← hw]
    rw [zip_talk] at f5
    unfold epsOf
    simpa using f5

/-! ## One action -/

theorem routed_listening (q : List (Message F)) (d : MsgKind × UID × List UID) (r out : List (Message F)) :
    routed q (listening d r out) =
      listening d (r ++ q.reverse.filter (fun x => (setInsertAll [] d.2.2).contains x.sender)) [] := rfl

theorem routed_talking (q : List (Message F)) (out : List (Message F)) : routed q (talking out) = talking [] := by
  unfold routed talking
  simp

theorem routed_epsOf (L : Layout) (W : Waiting) (h1 : W.channels.length = L.inputs.length)
    (h2 : W.handlers.length = L.handlers.length) (a b c : List (Message F)) :
    (epsOf L W).map (fun e => routed c (routed b (routed a e))) =
      L.inputs.map (fun _ => talking []) ++ L.outputs.map (fun o => full ((c ++ b ++ a).reverse) (.spike, o.1, o.2)) ++
      L.handlers.map (fun h => full ((c ++ b ++ a).reverse) (.spike, h.uid, h.senders)) ++
      L.observers.map (fun o => full ((c ++ b ++ a).reverse) (o.kind, o.uid, o.senders)) := by
  have hf : ∀ (d : MsgKind × UID × List UID) (out : List (Message F)),
      routed c (routed b (routed a (listening d [] out))) = full ((c ++ b ++ a).reverse) d := by
    intro d out
    rw [routed_listening, routed_listening, routed_listening]
    unfold full
    simp [List.filter_append]
  have ht : ∀ out : List (Message F), routed c (routed b (routed a (talking out))) = talking [] := by
    intro out; rw [routed_talking, routed_talking, routed_talking]
  unfold epsOf
  rw [List.map_append, List.map_append, List.map_append]
  congr 1
  · congr 1
    · congr 1
      · rw [List.map_map]
        have : ∀ (l : List (List SpikeMessage)) (ins : List UID), l.length = ins.length →
            l.map ((fun e => routed c (routed b (routed a e))) ∘ fun ms => talking (F := F) (ms.map .spike)) =
              ins.map (fun _ => talking []) := by
          intro l
          induction l with
          | nil => intro ins hl; cases ins with | nil => rfl | cons _ _ => simp at hl
          | cons x l ih =>
            intro ins hl
            cases ins with
            | nil => simp at hl
            | cons y ins =>
              rw [List.map_cons, List.map_cons, ih ins (by simpa using hl)]
              congr 1
              exact ht _
        exact this _ _ h1
      · rw [List.map_map]
        apply List.map_congr_left
        intro o _
        exact hf _ _
    · have : ∀ (hs : List Handler) (l : List (List SpikeMessage)), l.length = hs.length →
          (List.zipWith (fun h ms => listening (F := F) (.spike, h.uid, h.senders) [] (ms.map .spike)) hs l).map
            (fun e => routed c (routed b (routed a e))) = hs.map (fun h => full ((c ++ b ++ a).reverse) (.spike, h.uid, h.senders)) := by
        intro hs
        induction hs with
        | nil => intro l hl; rfl
        | cons x hs ih =>
          intro l hl
          cases l with
          | nil => simp at hl
          | cons y l =>
            rw [List.zipWith_cons_cons, List.map_cons, List.map_cons, ih l (by simpa using hl)]
            congr 1
            exact hf _ _
      exact this _ _ h2
  · rw [List.map_map]
    apply List.map_congr_left
    intro o _
    exact hf _ _

theorem spikes_wanted (imp : List (SynapticImpactMessage F)) (sp : List SpikeMessage) (u : UID) (xs : List UID) :
    spikesIn ((imp.map Message.impact ++ sp.map Message.spike).filter (wants (.spike, u, xs))) =
      sp.filter (fun x => decide (x.header.senderUid ∈ xs)) := by
  rw [List.filter_append]
  have h1 : (imp.map (Message.impact (F := F))).filter (wants (.spike, u, xs)) = [] := by
    rw [List.filter_eq_nil_iff]
    intro x hx
    obtain ⟨y, _, rfl⟩ := List.mem_map.1 hx
    simp [wants, Message.kind]
  rw [h1, List.nil_append, List.filter_map, spikesIn_map]
  apply List.filter_congr
  intro x _
  rw [Bool.eq_iff_iff]
  simp [wants, Message.kind, Message.sender, Message.header]
  exact decide_eq_true_iff

theorem zipWith_length {α β γ : Type} (f : α → β → γ) (l : List α) (l' : List β) (h : l'.length = l.length) :
    (List.zipWith f l l').length = l.length := by
  rw [List.length_zipWith, h, Nat.min_self]

theorem zipWith_fst {α β γ : Type} (f : α → γ) : ∀ (l : List α) (l' : List β), l'.length = l.length →
    (List.zipWith (fun a b => (f a, b)) l l').map (·.1) = l.map f := by
  intro l
  induction l with
  | nil => intro l' _; rfl
  | cons a l ih =>
    intro l' h
    cases l' with
    | nil => simp at h
    | cons b l' => simp [ih l' (by simpa using h)]

theorem zipWith_snd {α β γ δ : Type} (f : α → γ) (g : α → β → δ) : ∀ (l : List α) (l' : List β),
    List.zipWith (fun a (x : γ × β) => g a x.2) l (List.zipWith (fun a b => (f a, b)) l l') = List.zipWith g l l' := by
  intro l
  induction l with
  | nil => intro l'; rfl
  | cons a l ih =>
    intro l'
    cases l' with
    | nil => rfl
    | cons b l' => simp [ih l']

theorem postStep_spec (L : Layout) (c : Code σ F) (s : State σ P J F) (q : List (Message F)) (hlo : s.outs.length = L.outputs.length)
    (he : Eps s.core.world (L.inputs.map (fun _ => talking []) ++ L.outputs.map (fun o => full q (.spike, o.1, o.2)) ++
      L.handlers.map (fun h => full q (.spike, h.uid, h.senders)) ++
      L.observers.map (fun o => full q (o.kind, o.uid, o.senders)))) :
    ∃ ops answers u', postStep L c s = (⟨{ s.core with world := s.core.world.run ops },
        List.zipWith (fun o c => ⟨c.buffer ++ spikesIn (q.reverse.filter (wants (.spike, o.1, o.2)))⟩) L.outputs s.outs, u'⟩,
        List.zipWith (fun h a => (spikesIn (q.reverse.filter (wants (.spike, h.uid, h.senders))), a)) L.handlers answers,
        L.observers.map (fun b => q.reverse.filter (wants (b.kind, b.uid, b.senders)))) ∧
      answers.length = L.handlers.length ∧ (∀ op ∈ ops, Foreign L.chans op) ∧
      Eps (s.core.world.run ops) (epsOf L ⟨L.inputs.map (fun _ => []),
        List.zipWith (fun h a => message h.uid s.core.step a) L.handlers answers⟩) := by
  rw [List.append_assoc] at he
  obtain ⟨w1, ops1, a1, a2, a3, a4⟩ := updateOuts_spec q L.outputs s.outs _ _ s.core.world hlo he
  rw [← List.append_assoc] at a4
  obtain ⟨w2, u2, answers, ops2, b1, b2, b3, b4, b5⟩ := runHandlers_spec c s.core.step q L.handlers 0 _ _ w1 s.user a4
  rw [← List.append_nil (List.map (fun o : Observer => full q (o.kind, o.uid, o.senders)) L.observers), ← List.append_assoc] at b5
  obtain ⟨w3, u3, ops3, c1, c3, c4, c5⟩ := runObservers_spec c q L.observers 0 _ _ w2 u2 b5
  have k1 : (L.inputs.map (fun _ => (talking [] : Endpoint F))).length + 1 = L.outBase := by simp [Layout.outBase]
  have k2 : (L.inputs.map (fun _ => (talking [] : Endpoint F)) ++ L.outputs.map (fun o => listening (F := F) (.spike, o.1, o.2) [] [])).length + 1 =
      L.handlerBase := by simp [Layout.handlerBase]
  have k3 : (L.inputs.map (fun _ => (talking [] : Endpoint F)) ++ L.outputs.map (fun o => listening (F := F) (.spike, o.1, o.2) [] []) ++
      List.zipWith (fun h a => listening (F := F) (.spike, h.uid, h.senders) [] ((message h.uid s.core.step a).map .spike)) L.handlers answers).length + 1 =
      L.observerBase := by
    simp [Layout.observerBase, b2]; omega
  rw [k1] at a1
  rw [k2] at b1
  rw [k3] at c1
  have hw : w3 = s.core.world.run (ops1 ++ ops2 ++ ops3) := by
    rw [run_append, run_append, ← a2, ← b3, c3]
  refine ⟨ops1 ++ ops2 ++ ops3, answers, u3, ?_, b2, ?_, ?_⟩
  · unfold postStep
    simp only [a1, b1, c1, hw]
  · intro op hop
    rcases List.mem_append.1 hop with ho | ho
    · rcases List.mem_append.1 ho with ho | ho
      · refine foreign_mono ?_ op (a3 op ho)
        simp [Layout.chans]; omega
      · refine foreign_mono ?_ op (b4 op ho)
        simp [Layout.chans]
    · refine foreign_mono ?_ op (c4 op ho)
      simp [Layout.chans, b2]; omega
  · rw [← hw]
    unfold epsOf
    have : List.zipWith (fun (h : Handler) ms => listening (F := F) (.spike, h.uid, h.senders) [] (ms.map .spike)) L.handlers
        (List.zipWith (fun h a => message h.uid s.core.step a) L.handlers answers) =
        List.zipWith (fun h a => listening (F := F) (.spike, h.uid, h.senders) [] ((message h.uid s.core.step a).map .spike)) L.handlers answers := by
      generalize L.handlers = hs
      clear k1 k2 k3 a1 b1 c1 he a4 b5 c5 a3 b4 c4 b2
      induction hs generalizing answers with
      | nil => rfl
      | cons x hs ih =>
        cases answers with
        | nil => rfl
        | cons y ys => simp [ih ys]
    rw [this]
    simp only [List.map_map]
    simpa [idle, Function.comp_def] using c5

theorem learnStep_uids {m : Machine P J F} (hk : Keeps m) {H : Hearing} {t : Nat} {pops : List P} {projs : List J}
    {pending : List (SynapticImpactMessage F)} {ext : List (Message F)} {st : List P × List J} {o : StepOut F}
    (hfs : learnStep m H t pops projs pending ext = .ok (st, o)) :
    st.1.map m.popUid = pops.map m.popUid ∧ st.2.map m.projUid = projs.map m.projUid := by
  unfold learnStep at hfs
  simp only at hfs
  cases hfp : learnPops m t (fun r => (pending ++ impactsIn ext).filter (fun x => H.impact r x.header.senderUid)) pops projs with
  | throw w => rw [hfp] at hfs; cases hfs
  | ub => rw [hfp] at hfs; cases hfs
  | ok y =>
    obtain ⟨⟨ps', js'⟩, ss⟩ := y
    obtain ⟨ku1, ku2⟩ := learnPops_uids hk _ _ _ _ _ _ _ hfp
    rw [hfp] at hfs
    simp only [Outcome.ok.injEq, Prod.mk.injEq] at hfs
    rw [← hfs.1]
    exact ⟨ku1, by rw [mem_uid_map hk, ku2]⟩

theorem serves_single {m : Machine P J F} (hk : Keeps m) (H : Hearing) (chans : Nat) : Serves (stepSingle m) m H chans := by
  constructor
  intro sB pending e0 env s1 o hb hp hj hf _ h1
  have hstep := step_spec hk hb hp hj env hf
  cases hfs : learnStep m H sB.step sB.pops sB.projs pending (extOf chans env) with
  | throw w => rw [hfs] at hstep; simp only at hstep; rw [hstep] at h1; cases h1
  | ub => rw [hfs] at hstep; simp only at hstep; rw [hstep] at h1; cases h1
  | ok x =>
    obtain ⟨st, o'⟩ := x
    rw [hfs] at hstep
    simp only at hstep
    obtain ⟨s', e', k1, k2, k3, k4, k5, k6⟩ := hstep
    rw [k1] at h1
    simp only [Outcome.ok.injEq, Prod.mk.injEq] at h1
    obtain ⟨rfl, rfl⟩ := h1
    have huid := learnStep_uids hk hfs
    exact ⟨⟨e', k5⟩, k4, by rw [k2, huid.1], by rw [k3, huid.2], k6⟩

theorem serves_threads {m : Machine P J F} {th : Threads P J F} (hk : KeepsM m th) (sched : Nat → Learn.Sched) (H : Hearing)
    (chans : Nat) : Serves (stepThreads m th sched) m H chans := by
  constructor
  intro sB pending e0 env s1 o hb hp hj hf hi h1
  have h2 := stepThreads_ok h1
  simp only at h2
  have hstep := stepM_spec hk hb hp hj env (sched sB.step) hf
  rcases hfs : learnStepM m th H sB.step sB.pops sB.projs pending (extOf chans env) (sched sB.step) with _ | (x | w | _)
  all_goals rw [hfs] at hstep; simp only at hstep
  · rw [hstep] at h2; cases h2
  · obtain ⟨st, o'⟩ := x
    simp only at hstep
    obtain ⟨s', e', k1, k2, k3, k4, ku, kj, k5, k6⟩ := hstep
    rw [k1] at h2
    simp only [Option.some.injEq, Outcome.ok.injEq, Prod.mk.injEq] at h2
    obtain ⟨rfl, rfl⟩ := h2
    rw [hi, List.nil_append] at k5
    exact ⟨⟨e', k5⟩, k4, by rw [k2, ku], by rw [k3, kj], k6⟩
  · rw [hstep] at h2; cases h2
  · rw [hstep] at h2; cases h2

theorem iterate_spec {step : Stepper P J F} {m : Machine P J F} {H : Hearing} {L : Layout} (hk : Serves step m H L.chans) {s0 : Learn.State P J F} {s s' : State σ P J F}
    {tr : List (Item F)} {envs : List (List (Op F))} {sB : Learn.State P J F} {env : List (Op F)}
    {pending : List (SynapticImpactMessage F)} {e0 : Endpoint F} (h : Inv step m H L s0 s tr envs sB env pending e0) (c : Code σ F)
    {p : σ → σ} {i : Iter F} (hi : iterate step L c p s = .ok (s', i)) :
    ItemOk L tr (.iter i) ∧ ∃ envs' sB' env' e0', Inv step m H L s0 s' (tr ++ [.iter i]) envs' sB' env' i.out.impacts e0' := by
  obtain ⟨u', fed, ops, f1, f2, f3, f4⟩ := preStep_spec h c
  have hsb : sB.step = (iters tr).length := by
    have := h.time; rw [h.core] at this; exact this
  have hsc : s.core.step = sB.step := by rw [hsb, h.time]
  rw [hsc] at f4
  have hlc : (List.zipWith (· ++ ·) (waiting L tr).channels (fedBy L sB.step fed)).length = L.inputs.length := by
    rw [zipWith_length _ _ _ (by rw [h.lenC]; unfold fedBy; rw [zipWith_length _ _ _ f2]), h.lenC]
  have hext : extOf L.chans (env ++ ops) = ((List.zipWith (· ++ ·) (waiting L tr).channels (fedBy L sB.step fed)).flatten ++
      (waiting L tr).handlers.flatten).map .spike := by
    rw [ext_of_eps h.between f3 f4 (epsOf_length L ⟨List.zipWith (· ++ ·) (waiting L tr).channels (fedBy L sB.step fed), (waiting L tr).handlers⟩ hlc h.lenH), epsOf_out L ⟨List.zipWith (· ++ ·) (waiting L tr).channels (fedBy L sB.step fed), (waiting L tr).handlers⟩ h.lenH]
    rfl
  unfold iterate at hi
  simp only [f1] at hi
  cases h1 : step { sB with world := sB.world.run (env ++ ops) } with
  | throw w => rw [h1] at hi; cases hi
  | ub => rw [h1] at hi; cases hi
  | ok x =>
    obtain ⟨s1, o⟩ := x
    obtain ⟨⟨e1, h5⟩, h4, h2, h3, h6⟩ := hk.ok h.between h.popUids h.projUids f3 (by rw [hext, impactsIn_spikes]) h1
    rw [h1] at hi
    simp only at hi
    -- endpoints after the step
    have he : Eps s1.world ((epsOf L ⟨List.zipWith (· ++ ·) (waiting L tr).channels (fedBy L sB.step fed), (waiting L tr).handlers⟩).map
        (fun e => routed (o.impacts.map .impact) (routed (o.spikes.map .spike) (routed (extOf L.chans (env ++ ops)) e)))) := by
      intro n
      rw [h6 (n + 1) (by omega), f4 n, List.getElem?_map]
      cases (epsOf (F := F) L ⟨List.zipWith (· ++ ·) (waiting L tr).channels (fedBy L sB.step fed), (waiting L tr).handlers⟩)[n]? <;> rfl
    rw [routed_epsOf L ⟨List.zipWith (· ++ ·) (waiting L tr).channels (fedBy L sB.step fed), (waiting L tr).handlers⟩ hlc h.lenH] at he
    obtain ⟨ops2, answers, u2, g1, g2, g3, g4⟩ := postStep_spec L c ⟨s1, s.outs, p u'⟩ _ h.outsLen he
    rw [g1] at hi
    simp only [Outcome.ok.injEq, Prod.mk.injEq] at hi
    obtain ⟨hs', hi'⟩ := hi
    have hsd : spikesDuring L tr i = o.spikes ++ ((List.zipWith (· ++ ·) (waiting L tr).channels (fedBy L sB.step fed)).flatten ++
        (waiting L tr).handlers.flatten) := by
      rw [← hi']
      simp only [spikesDuring, external, Waiting.into, hsc]
    have hq : (o.impacts.map Message.impact ++ o.spikes.map .spike ++ extOf L.chans (env ++ ops)) = busDuring L tr i := by
      unfold busDuring
      rw [hsd, hext, ← hi']
      simp
    rw [List.reverse_reverse, hq] at hi' hs'
    have hqs : ∀ u xs, spikesIn ((busDuring L tr i).filter (wants (.spike, u, xs))) =
        (spikesDuring L tr i).filter (fun x => decide (x.header.senderUid ∈ xs)) := by
      intro u xs; unfold busDuring; rw [spikes_wanted]
    have hext' : extOf L.chans (env ++ ops) = (external L tr i).map .spike := by
      rw [hext]
      have : spikesDuring L tr i = o.spikes ++ external L tr i := by unfold spikesDuring; rw [← hi']
      rw [hsd] at this
      rw [List.append_cancel_left this]
    constructor
    · refine ⟨by rw [← hi']; exact h.time, by rw [← hi']; exact f2, ?_, ?_⟩
      · have : i.handled = List.zipWith (fun (h : Handler) a => (spikesIn ((busDuring L tr i).filter
            (wants (.spike, h.uid, h.senders))), a)) L.handlers answers := by
          conv => lhs; rw [← hi']
        rw [this, zipWith_fst (fun h : Handler => spikesIn ((busDuring L tr i).filter (wants (.spike, h.uid, h.senders)))) _ _ g2]
        apply List.map_congr_left
        intro x _
        exact hqs _ _
      · have : i.observed = L.observers.map (fun b => (busDuring L tr i).filter (wants (b.kind, b.uid, b.senders))) := by
          conv => lhs; rw [← hi']
        rw [this]
        rfl
    · have hlen : (waiting L (tr ++ [.iter i])) = ⟨L.inputs.map (fun _ => []),
          List.zipWith (fun h a => message h.uid s1.step a) L.handlers answers⟩ := by
        rw [waiting_snoc]
        unfold Waiting.after
        simp only [Waiting.mk.injEq, true_and]
        have h1' : i.handled = List.zipWith (fun (h : Handler) a => (spikesIn ((busDuring L tr i).filter
            (wants (.spike, h.uid, h.senders))), a)) L.handlers answers := by
          conv => lhs; rw [← hi']
        have h2' : i.time + 1 = s1.step := by
          have : i.time = s.core.step := by rw [← hi']
          rw [this, h4, hsc]
        rw [h1', h2']
        exact zipWith_snd _ (fun (h : Handler) a => message h.uid s1.step a) _ _
      have hout : i.out = o := by rw [← hi']
      rw [hout]
      refine ⟨envs ++ [env ++ ops], s1, ops2, e1, ⟨h5, ?_, ?_, ?_, ?_, g3, ?_, ?_, ?_, ?_, ?_, ?_, ?_, ?_⟩⟩
      · rw [iters_iter, List.map_append]
        have := after_snoc envs (env ++ ops) h.past h1
        rw [this]
        simp [hout]
      · rw [externals_iter, List.map_append, List.map_append, h.exts]
        simp [hext']
      · intro en hen op hop
        rcases List.mem_append.1 hen with h' | h'
        · exact h.foreigns en h' op hop
        · simp only [List.mem_cons, List.not_mem_nil, or_false] at h'
          subst h'
          exact f3 op hop
      · rw [← hs']
      · rw [hlen, ← hs']
        exact g4
      · rw [hlen]; simp
      · rw [hlen]; simp [g2]
      · rw [h2]; exact h.popUids
      · rw [h3]; exact h.projUids
      · rw [← hs', iters_iter]
        simp only [List.length_append, List.length_cons, List.length_nil]
        rw [h4, hsb]
      · rw [← hs']
        simp [h.outsLen]
      · intro n x hx
        rw [← hs', bufferOf_snoc]
        simp only [bufferAfter]
        rw [List.getElem?_zipWith, hx, h.outs n x hx]
        simp only
        rw [hqs]

theorem act_spec {step : Stepper P J F} {m : Machine P J F} {H : Hearing} {L : Layout} (hk : Serves step m H L.chans) {s0 : Learn.State P J F} {s s' : State σ P J F}
    {tr : List (Item F)} {envs : List (List (Op F))} {sB : Learn.State P J F} {env : List (Op F)}
    {pending : List (SynapticImpactMessage F)} {e0 : Endpoint F} (h : Inv step m H L s0 s tr envs sB env pending e0) (c : Code σ F)
    {a : Act σ} {it : Item F} (hi : act step L c s a = .ok (s', it)) :
    ItemOk L tr it ∧ ∃ envs' sB' env' pending' e0', Inv step m H L s0 s' (tr ++ [it]) envs' sB' env' pending' e0' := by
  cases a with
  | iterate p =>
    simp only [act] at hi
    cases h1 : iterate step L c p s with
    | throw w => rw [h1] at hi; cases hi
    | ub => rw [h1] at hi; cases hi
    | ok x =>
      obtain ⟨s1, i⟩ := x
      rw [h1] at hi
      simp only [Outcome.ok.injEq, Prod.mk.injEq] at hi
      obtain ⟨rfl, rfl⟩ := hi
      obtain ⟨k1, envs', sB', env', e0', k2⟩ := iterate_spec hk h c h1
      exact ⟨k1, envs', sB', env', _, e0', k2⟩
  | halt p =>
    obtain ⟨u', fed, ops, f1, f2, f3, f4⟩ := preStep_spec h c
    simp only [act, f1, Outcome.ok.injEq, Prod.mk.injEq] at hi
    obtain ⟨rfl, rfl⟩ := hi
    refine ⟨⟨h.time, f2⟩, envs, sB, env ++ ops, pending, e0, ⟨h.between, ?_, ?_, h.foreigns, rfl, f3, ?_, ?_, ?_, h.popUids, h.projUids, ?_,
      h.outsLen, ?_⟩⟩
    · rw [iters_halt]; exact h.past
    · rw [externals_halt]; exact h.exts
    · rw [waiting_snoc]; exact f4
    · rw [waiting_snoc]
      unfold Waiting.after
      simp only
      rw [zipWith_length _ _ _ (by rw [h.lenC]; unfold fedBy; rw [zipWith_length _ _ _ f2]), h.lenC]
    · rw [waiting_snoc]; exact h.lenH
    · rw [iters_halt, ← h.time, h.core]
    · intro n o ho
      rw [bufferOf_snoc]
      exact h.outs n o ho
  | read n x y mx =>
    simp only [act] at hi
    cases h1 : s.outs[n]? with
    | none => rw [h1] at hi; cases hi
    | some ch =>
      rw [h1] at hi
      simp only at hi
      cases h2 : ch.readSome mx x y with
      | throw w => rw [h2] at hi; cases hi
      | ub => rw [h2] at hi; cases hi
      | ok z =>
        obtain ⟨ch1, got⟩ := z
        rw [h2] at hi
        simp only [Outcome.ok.injEq, Prod.mk.injEq] at hi
        obtain ⟨rfl, rfl⟩ := hi
        obtain ⟨r1, r2⟩ := readSome_ok h2
        have hn : n < L.outputs.length := by
          rw [← h.outsLen]
          rcases Nat.lt_or_ge n s.outs.length with hl | hl
          · exact hl
          · rw [List.getElem?_eq_none hl] at h1; cases h1
        have ho : L.outputs[n]? = some L.outputs[n] := List.getElem?_eq_getElem hn
        have hch : ch = ⟨bufferOf L n (L.outputs[n]).2 tr⟩ := by
          have := h.outs n _ ho
          rw [h1] at this
          exact Option.some.inj this
        refine ⟨⟨_, ho, by rw [r1, hch]⟩, envs, sB, env, pending, e0, ⟨h.between, ?_, ?_, h.foreigns, h.core, h.foreign, ?_, ?_, ?_, h.popUids,
          h.projUids, ?_, by simp [h.outsLen], ?_⟩⟩
        · rw [iters_read]; exact h.past
        · rw [externals_read]; exact h.exts
        · rw [waiting_snoc]; exact h.eps
        · rw [waiting_snoc]; exact h.lenC
        · rw [waiting_snoc]; exact h.lenH
        · rw [iters_read]; exact h.time
        · intro k o hko
          rw [bufferOf_snoc]
          simp only [bufferAfter]
          by_cases hkn : n = k
          · subst hkn
            rw [if_pos rfl, List.getElem?_set_self (by rw [h.outsLen]; exact hn)]
            rw [ho] at hko
            obtain rfl := Option.some.inj hko
            congr 1
            rw [hch] at r2
            cases ch1
            simp only at r2
            rw [r2]
          · rw [if_neg hkn, List.getElem?_set_ne hkn]
            exact h.outs k o hko

/-- Every item of `tr1` is as it should be after what came before. -/
def Explained (L : Layout) (tr0 tr1 : List (Item F)) : Prop :=
  ∀ a it b, tr1 = a ++ it :: b → ItemOk L (tr0 ++ a) it

theorem run_spec {step : Stepper P J F} {m : Machine P J F} {H : Hearing} {L : Layout} (hk : Serves step m H L.chans) {s0 : Learn.State P J F} (c : Code σ F)
    (acts : List (Act σ)) : ∀ {s s' : State σ P J F} {tr tr1 : List (Item F)} {envs : List (List (Op F))} {sB : Learn.State P J F}
    {env : List (Op F)} {pending : List (SynapticImpactMessage F)} {e0 : Endpoint F}, Inv step m H L s0 s tr envs sB env pending e0 →
    run step L c s acts = .ok (s', tr1) →
    Explained L tr tr1 ∧ ∃ envs' sB' env' pending' e0', Inv step m H L s0 s' (tr ++ tr1) envs' sB' env' pending' e0' := by
  induction acts with
  | nil =>
    intro s s' tr tr1 envs sB env pending e0 h hr
    simp only [run, Outcome.ok.injEq, Prod.mk.injEq] at hr
    obtain ⟨rfl, rfl⟩ := hr
    refine ⟨?_, envs, sB, env, pending, e0, by simpa using h⟩
    intro a it b hab
    simp at hab
  | cons x acts ih =>
    intro s s' tr tr1 envs sB env pending e0 h hr
    unfold run at hr
    cases h1 : act step L c s x with
    | throw w => rw [h1] at hr; cases hr
    | ub => rw [h1] at hr; cases hr
    | ok y =>
      obtain ⟨s1, it⟩ := y
      rw [h1] at hr
      simp only at hr
      cases h2 : run step L c s1 acts with
      | throw w => rw [h2] at hr; cases hr
      | ub => rw [h2] at hr; cases hr
      | ok z =>
        obtain ⟨s2, its⟩ := z
        rw [h2] at hr
        simp only [Outcome.ok.injEq, Prod.mk.injEq] at hr
        obtain ⟨rfl, rfl⟩ := hr
        obtain ⟨k1, envs', sB', env', pending', e0', k2⟩ := act_spec hk h c h1
        obtain ⟨l1, l2⟩ := ih k2 h2
        refine ⟨?_, by simpa using l2⟩
        intro a it' b hab
        cases a with
        | nil =>
          simp only [List.nil_append, List.cons.injEq] at hab
          rw [List.append_nil, ← hab.1]
          exact k1
        | cons w a =>
          simp only [List.cons_append, List.cons.injEq] at hab
          have := l1 a it' b hab.2
          rw [← hab.1]
          simpa using this

/-! ## The start -/

theorem subscribeAll_spec : ∀ (ds : List (MsgKind × UID × List UID)) (A B : List (Endpoint F)) (w : World F),
    Eps w (A ++ ds.map (fun _ => .fresh) ++ B) → Eps (w.run (subscribeAll (A.length + 1) ds)) (A ++ ds.map idle ++ B) ∧
      ∀ op ∈ subscribeAll (F := F) (A.length + 1) ds, Foreign (A.length + ds.length) op := by
  intro ds
  induction ds with
  | nil => intro A B w h; exact ⟨h, by simp [subscribeAll]⟩
  | cons d ds ih =>
    intro A B w h
    rw [List.map_cons, List.append_assoc, List.cons_append] at h
    have h1 := eps_on h (fun ep => ep.subscribe d.1 d.2.1 d.2.2)
    rw [subscribe_fresh] at h1
    have h2 : Eps (w.exec (.subscribe (A.length + 1) d.1 d.2.1 d.2.2)) ((A ++ [idle d]) ++ ds.map (fun _ => .fresh) ++ B) := by
      simpa [idle, World.exec] using h1
    obtain ⟨i1, i2⟩ := ih _ _ _ h2
    simp only [List.length_append, List.length_cons, List.length_nil, Nat.zero_add] at i1 i2
    refine ⟨?_, ?_⟩
    · unfold subscribeAll
      have : w.run (.subscribe (A.length + 1) d.1 d.2.1 d.2.2 :: subscribeAll (A.length + 1 + 1) ds) =
        (w.exec (.subscribe (A.length + 1) d.1 d.2.1 d.2.2)).run (subscribeAll (A.length + 1 + 1) ds) := rfl
      rw [this]
      simpa using i1
    · intro op hop
      unfold subscribeAll at hop
      rcases List.mem_cons.1 hop with rfl | ho
      · exact ⟨by omega, by simp⟩
      · have := i2 op ho
        simpa [Nat.add_assoc, Nat.add_comm 1] using this

theorem boot_eps (m : Machine P J F) (pops : List P) (projs : List J) (inputs : List (UID × UID)) (chans : Nat) :
    Eps (Learn.boot m pops projs inputs chans).world (List.replicate chans .fresh) := by
  intro i
  have hw : (Learn.boot m pops projs inputs chans).world =
      ⟨⟨true, bootEp (projs.map m.wire) inputs⟩ :: List.replicate chans ⟨true, .fresh⟩, []⟩ := by
    unfold Learn.boot
    simp only
    rw [run_create, run_subscribe]
    simp only [World.init, List.nil_append, List.replicate_succ, World.onEndpoint, List.modify_zero_cons, Learn.bootEp]
    rfl
  rw [hw]
  unfold World.endpoint
  simp only [List.getElem?_cons_succ, List.getElem?_replicate]
  by_cases h : i < chans
  · simp [h]
  · simp [h]

theorem boot_inv (step : Stepper P J F) {m : Machine P J F} (L : Layout) (pops : List P) (projs : List J) (inputs : List (UID × UID)) (u : σ)
    (hnp : (pops.map m.popUid).Nodup) (hnj : (projs.map m.projUid).Nodup) :
    ∃ e0, Inv step m (hearingOfWires (projs.map m.wire) (inputs ++ L.handlerInputs)) L
      (Learn.boot m pops projs (inputs ++ L.handlerInputs) L.chans) (boot m L pops projs inputs u) [] []
      (Learn.boot m pops projs (inputs ++ L.handlerInputs) L.chans) (subscribeAll L.outBase L.listeners) [] e0 := by
  obtain ⟨e0, hb⟩ := boot_between m pops projs (inputs ++ L.handlerInputs) L.chans
  have he := boot_eps m pops projs (inputs ++ L.handlerInputs) L.chans
  have hll : L.listeners.length = L.outputs.length + L.handlers.length + L.observers.length := by
    unfold Layout.listeners; simp
    omega
  have hrep : (List.replicate L.chans (Endpoint.fresh : Endpoint F)) =
      L.inputs.map (fun _ => talking []) ++ L.listeners.map (fun _ => .fresh) ++ [] := by
    have h1 : L.inputs.map (fun _ => (talking [] : Endpoint F)) = List.replicate L.inputs.length .fresh := by
      rw [List.map_const']; rfl
    have h2 : L.listeners.map (fun _ => (Endpoint.fresh : Endpoint F)) = List.replicate L.listeners.length .fresh := by
      rw [List.map_const']
    rw [h1, h2, List.append_nil, List.replicate_append_replicate, hll]
    congr 1
    unfold Layout.chans; omega
  rw [hrep] at he
  obtain ⟨a1, a2⟩ := subscribeAll_spec L.listeners _ _ _ he
  have hob : (L.inputs.map (fun _ => (talking [] : Endpoint F))).length + 1 = L.outBase := by simp [Layout.outBase]
  rw [hob] at a1 a2
  refine ⟨e0, ⟨hb, rfl, rfl, by simp, rfl, ?_, ?_, ?_, ?_, hnp, hnj, rfl, by simp [boot], ?_⟩⟩
  · intro op hop
    refine foreign_mono ?_ op (a2 op hop)
    rw [hll, List.length_map]
    unfold Layout.chans; omega
  · have : epsOf (F := F) L (waiting L ([] : List (Item F))) = L.inputs.map (fun _ => talking []) ++ L.listeners.map idle ++ [] := by
      unfold epsOf waiting Layout.listeners Waiting.none
      simp only [List.foldl_nil, List.map_map, List.map_append, List.append_nil, Function.comp_def, List.map_nil, List.append_assoc]
      congr 2
      congr 1
      generalize L.handlers = hs
      induction hs with
      | nil => rfl
      | cons x hs ih => simp only [List.map_cons, List.zipWith_cons_cons, ih]; rfl
    rw [this]
    exact a1
  · simp [waiting, Waiting.none]
  · simp [waiting, Waiting.none]
  · intro n o ho
    unfold boot
    simp only [List.getElem?_map, ho, Option.map_some]
    rfl

end Knp.Prog
