import Verif.Model.Wta
import Verif.Props.Program
import Verif.Props.Handlers

/-!
# C159: winner-take-all groups in a program

`add_wta_handlers` puts winner-take-all handlers between populations and projections.  What the receiving projections get of a
population that fires is at most `winners` of its spikes from every group, one step later.
-/

namespace Knp.Props
open Knp Knp.Spec Knp.Neurons Knp.Stdp Knp.Prog Knp.Handlers

section
variable {σ N B F : Type} [Field F] [LinearOrder F]

/-- The spikes of population `p` in a step. -/
def firedIn (out : Sys.StepOut F) (p : UID) : List Nat :=
  (out.spikes.filter (fun x => decide (x.header.senderUid = p))).flatMap (fun x => x.neuronIndexes)

/-- `ans` are winners among `spikes`: from every group `k` or, if there are fewer, all; no spike more often than it occurs. -/
def Winners (borders : List Nat) (k : Nat) (spikes ans : List Nat) : Prop :=
  (∀ g, (ans.filter (fun x => decide (groupOf borders x = g))).length =
    min k (spikes.filter (fun x => decide (groupOf borders x = g))).length) ∧
  ∀ x, ans.count x ≤ spikes.count x

omit [Field F] [LinearOrder F] in
private theorem inTurn_get {β : Type} (f : Nat → σ → β × σ) : ∀ (ks : List Nat) (u : σ) (n k : Nat), ks[n]? = some k →
    ∃ u', (inTurn f ks u).1[n]? = some (f k u').1 := by
  intro ks
  induction ks with
  | nil => intro u n k h; simp at h
  | cons a ks ih =>
    intro u n k h
    cases n with
    | zero =>
      simp only [List.getElem?_cons_zero, Option.some.injEq] at h
      subst h
      exact ⟨u, rfl⟩
    | succ n =>
      simp only [List.getElem?_cons_succ] at h
      obtain ⟨u', h'⟩ := ih (f a u).2 n k h
      exact ⟨u', by simpa [inTurn] using h'⟩

omit [Field F] [LinearOrder F] in
private theorem userRun_at {L : Layout} {c : Code σ F} : ∀ (a b : List (Item F)) (i : Iter F) (u u' : σ) (acts : List (Act σ)),
    UserRun L c u acts (a ++ .iter i :: b) u' → ∀ (n : Nat) (got : List SpikeMessage) (ans : List Nat),
    i.handled[n]? = some (got, ans) → n < L.handlers.length → ∃ v, ans = (c.handle n v got).1 := by
  intro a
  induction a with
  | nil =>
    intro b i u u' acts h n got ans hn hl
    rw [List.nil_append] at h
    cases acts with
    | nil => simp [UserRun] at h
    | cons x xs =>
      cases x with
      | halt p => simp [UserRun] at h
      | read _ _ _ _ => simp [UserRun] at h
      | iterate p =>
        simp only [UserRun] at h
        obtain ⟨_, h2, _⟩ := h
        have h3 := congrArg (fun l => l[n]?) h2
        simp only [List.getElem?_map, hn, Option.map_some] at h3
        obtain ⟨v, hv⟩ := inTurn_get (fun k u => c.handle k u ((i.handled.map (·.1)).getD k [])) (List.range L.handlers.length)
          (p (inTurn (fun k u => c.gen k u i.time) (List.range L.inputs.length) u).2) n n (by simp [hl])
        rw [hv] at h3
        simp only [Option.some.injEq] at h3
        refine ⟨v, ?_⟩
        rw [h3]
        simp [List.getD_eq_getElem?_getD, hn]
  | cons it a ih =>
    intro b i u u' acts h n got ans hn hl
    rw [List.cons_append] at h
    cases acts with
    | nil => cases it <;> simp [UserRun] at h
    | cons x xs =>
      cases x <;> cases it <;> simp only [UserRun] at h <;> try exact h.elim
      · exact ih _ _ _ _ _ h.2.2 n got ans hn hl
      · exact ih _ _ _ _ _ h.2 n got ans hn hl
      · exact ih _ _ _ _ _ h.2 n got ans hn hl

theorem addWta_spec (fresh : Nat → UID) : ∀ (data : List (List UID × List UID)) (k : Nat) (L : Layout),
    addWtaHandlers fresh k L data =
      (⟨L.inputs, L.outputs, L.handlers ++ data.mapIdx (fun n d => ⟨fresh (k + n), d.1, d.2⟩), L.observers⟩,
        (List.range data.length).map (fun n => fresh (k + n))) := by
  intro data
  induction data with
  | nil => intro k L; simp [addWtaHandlers]
  | cons d ds ih =>
    intro k L
    unfold addWtaHandlers
    simp only
    rw [ih]
    simp only [List.mapIdx_cons, List.append_assoc, List.singleton_append, List.length_cons, List.range_succ_eq_map, List.map_cons,
      List.map_map]
    have e : ∀ n, k + 1 + n = k + (n + 1) := fun n => by omega
    simp only [e, Nat.add_zero]
    rfl

/-- C159, what `add_wta_handlers` returns: the UID of every handler it added, in the order of the given pairs; the rest of the program
is unchanged. -/
theorem C159_uids (fresh : Nat → UID) (L : Layout) (data : List (List UID × List UID)) :
    (addWtaHandlers fresh 0 L data).2.length = data.length ∧
    (addWtaHandlers fresh 0 L data).1.inputs = L.inputs ∧ (addWtaHandlers fresh 0 L data).1.outputs = L.outputs ∧
    (addWtaHandlers fresh 0 L data).1.observers = L.observers ∧
    (addWtaHandlers fresh 0 L data).1.handlers.take L.handlers.length = L.handlers ∧
    (addWtaHandlers fresh 0 L data).1.handlers.length = L.handlers.length + data.length ∧
    ∀ (n : Nat) (d : List UID × List UID), data[n]? = some d → ∃ u, (addWtaHandlers fresh 0 L data).2[n]? = some u ∧
      (addWtaHandlers fresh 0 L data).1.handlers[L.handlers.length + n]? = some ⟨u, d.1, d.2⟩ := by
  rw [addWta_spec]
  refine ⟨by simp, rfl, rfl, rfl, by simp, by simp, ?_⟩
  intro n d hd
  have hn : n < data.length := (List.getElem?_eq_some_iff.1 hd).1
  refine ⟨fresh (0 + n), by simp [hn], ?_⟩
  simp only
  rw [List.getElem?_append_right (by omega), Nat.add_sub_cancel_left, List.getElem?_mapIdx, hd]
  rfl

variable {be : Prog.Backend F} {o : Ops F} {L : Layout} {c : Code σ F} {pops : List (Learn.Pop N B F)} {projs : List (Learn.Proj F)}
  {inputs : List (UID × UID)} {u0 : σ} {acts : List (Act σ)} {s : Prog.State σ (Learn.Pop N B F) (Learn.Proj F) F}
  {tr : List (Item F)} {fresh : Nat → UID} {data : List (List UID × List UID)} {maxSize k : Nat} {borders : List Nat}
  {draw : Nat → σ → Nat → Nat → Nat} {advance : Nat → σ → σ}

/-- C159, any senders: in the step after an iteration the receivers of a pair get, from its handler, winners among the spikes of one
message of that iteration - the first that any of the senders sent; nothing if none of them sent anything. -/
theorem C159_first_message
    (h : ProgRun be o (addWtaHandlers fresh 0 L data).1 (wtaCode c L.handlers.length data.length maxSize borders k draw advance)
      pops projs inputs u0 acts s tr)
    (hm : borders.length * k ≤ maxSize) (hn : ((addWtaHandlers fresh 0 L data).1.handlers.map (·.uid)).Nodup)
    (n : Nat) (senders receivers : List UID) (hd : data[n]? = some (senders, receivers))
    (u : UID) (hu : (addWtaHandlers fresh 0 L data).2[n]? = some u) (hui : u ∉ L.inputs) (hup : u ∉ pops.map Learn.Pop.uid)
    {a mid b : List (Item F)} {i i' : Iter F} (ht : tr = a ++ .iter i :: (mid ++ .iter i' :: b)) (hmid : iters mid = []) :
    i'.time = i.time + 1 ∧ ∃ ans, Winners borders k
        (match (spikesDuring (addWtaHandlers fresh 0 L data).1 a i).find? (fun x => decide (x.header.senderUid ∈ senders)) with
          | some m => m.neuronIndexes
          | none => []) ans ∧
      ∀ r ∈ receivers, r ∈ projs.map (fun j => j.ident.uid) →
        (heardBy i'.out r).filter (fun x => decide (x.header.senderUid = u)) = message u i'.time ans := by
  obtain ⟨_, hin, _, _, _, hlen, hat⟩ := C159_uids fresh L data
  obtain ⟨u', hu', hh⟩ := hat n _ hd
  rw [hu] at hu'
  simp only [Option.some.injEq] at hu'
  subst hu'
  have hnd : n < data.length := (List.getElem?_eq_some_iff.1 hd).1
  obtain ⟨ans, hans⟩ := C117_handler_input h ht _ _ hh
  obtain ⟨htime, hrec, _⟩ := C117_handler_delay h hn ht hmid _ _ hh _ _ hans (by rw [hin]; exact hui) hup
  have hcode := C122_user_code h
  rw [ht] at hcode
  obtain ⟨v, hv⟩ := userRun_at a (mid ++ .iter i' :: b) i u0 s.user acts hcode _ _ _ hans (by rw [hlen]; omega)
  refine ⟨htime, ans, ?_, fun r hr hrp => hrec r hr hrp⟩
  simp only [wtaCode] at hv
  rw [if_pos (by omega)] at hv
  generalize spikesDuring (addWtaHandlers fresh 0 L data).1 a i = ms at hv
  rw [← List.head?_filter]
  cases hf : ms.filter (fun x => decide (x.header.senderUid ∈ senders)) with
  | nil =>
    rw [hf] at hv
    simp only [kWtaPerGroup] at hv
    subst hv
    exact ⟨fun g => by simp, fun x => by simp⟩
  | cons m others =>
    rw [hf] at hv
    obtain ⟨res, hres, hg, hc⟩ := C37_per_group (draw (L.handlers.length + n - L.handlers.length) v) maxSize borders k m others hm
    rw [hres] at hv
    simp only at hv
    subst hv
    exact ⟨hg, hc⟩

omit [Field F] [LinearOrder F] in
/-- At most one message of every sender. -/
private theorem one_of (p : UID) : ∀ (l : List SpikeMessage), (l.map (fun x => x.header.senderUid)).Nodup →
    (l.filter (fun x => decide (x.header.senderUid = p))).flatMap (fun x => x.neuronIndexes) =
      (match l.find? (fun x => decide (x.header.senderUid ∈ [p])) with
        | some m => m.neuronIndexes
        | none => []) := by
  intro l
  induction l with
  | nil => intro _; rfl
  | cons m l ih =>
    intro hnd
    rw [List.map_cons, List.nodup_cons] at hnd
    by_cases hp : m.header.senderUid = p
    · have hz : l.filter (fun x => decide (x.header.senderUid = p)) = [] := by
        rw [List.filter_eq_nil_iff]
        intro x hx hc
        simp only [decide_eq_true_eq] at hc
        exact hnd.1 (List.mem_map.2 ⟨x, hx, hc.trans hp.symm⟩)
      rw [List.filter_cons_of_pos (by simpa using hp), hz, List.find?_cons_of_pos (by simpa using hp)]
      simp
    · rw [List.filter_cons_of_neg (by simpa using hp), List.find?_cons_of_neg (by simpa using hp)]
      exact ih hnd.2

/-- C159 (partial), one sender: if the sender of a pair is one population, the receivers get in the step after an iteration, from the
pair's handler, exactly winners among the spikes of that population in that iteration: from every group `k` spikes, or all if there
are fewer.  Missing: with several senders the property is false (`C159_two_senders_refuted`). -/
theorem C159_winners_partial
    (h : ProgRun be o (addWtaHandlers fresh 0 L data).1 (wtaCode c L.handlers.length data.length maxSize borders k draw advance)
      pops projs inputs u0 acts s tr)
    (hm : borders.length * k ≤ maxSize) (hn : ((addWtaHandlers fresh 0 L data).1.handlers.map (·.uid)).Nodup)
    (n : Nat) (p : UID) (receivers : List UID) (hd : data[n]? = some ([p], receivers))
    (hp : p ∉ L.inputs) (hph : p ∉ (addWtaHandlers fresh 0 L data).1.handlers.map (·.uid))
    (u : UID) (hu : (addWtaHandlers fresh 0 L data).2[n]? = some u) (hui : u ∉ L.inputs) (hup : u ∉ pops.map Learn.Pop.uid)
    {a mid b : List (Item F)} {i i' : Iter F} (ht : tr = a ++ .iter i :: (mid ++ .iter i' :: b)) (hmid : iters mid = []) :
    i'.time = i.time + 1 ∧ ∃ ans, Winners borders k (firedIn i.out p) ans ∧
      ∀ r ∈ receivers, r ∈ projs.map (fun j => j.ident.uid) →
        (heardBy i'.out r).filter (fun x => decide (x.header.senderUid = u)) = message u i'.time ans := by
  obtain ⟨htime, ans, hw, hr⟩ := C159_first_message h hm hn n [p] receivers hd u hu hui hup ht hmid
  refine ⟨htime, ans, ?_, hr⟩
  obtain ⟨hsub, hext⟩ := C119_senders h ht
  have hone := one_of p i.out.spikes (hsub.nodup h.popUids)
  unfold firedIn
  rw [hone]
  have hnone : (external (addWtaHandlers fresh 0 L data).1 a i).find? (fun x => decide (x.header.senderUid ∈ [p])) = none := by
    rw [List.find?_eq_none]
    intro x hx hc
    have hc' : x.header.senderUid = p := by simpa using hc
    rcases (hext x hx).2 with h' | h'
    · rw [(C159_uids fresh L data).2.1] at h'
      exact hp (hc' ▸ h')
    · exact hph (hc' ▸ h')
  unfold spikesDuring at hw
  rw [List.find?_append, hnone, Option.or_none] at hw
  exact hw

end

/-! ## An example

Channel 50 makes neurons of population 1 (five neurons) and population 2 (two neurons) fire; winner-take-all handlers stand between them
and projection 12. -/
namespace WtaEx

/-- LIF neurons. -/
def lifs (n : Nat) : List (Lif ℚ) := List.replicate n ⟨0, 0, 1, 1, 0, 0⟩
/-- The populations. -/
def pops : List (Learn.Pop (Lif ℚ) (Blifat ℚ) ℚ) :=
  [.plain 1 (@lif ℚ LearnEx.arith) (lifs 5), .plain 2 (@lif ℚ LearnEx.arith) (lifs 2), .plain 3 (@lif ℚ LearnEx.arith) (lifs 5)]
/-- One-to-one synapses with delay 1. -/
def ones (n : Nat) : Learn.Syns ℚ :=
  .delta ⟨(List.range n).map (fun i => ⟨i, i, 3, 1, .excitatory⟩), fun i => if i < n then [i] else []⟩
/-- The projections: from the channel to populations 1 and 2, from the handlers to population 3. -/
def projs : List (Learn.Proj ℚ) :=
  [⟨⟨10, 0, 1, false⟩, false, ones 5, []⟩, ⟨⟨11, 0, 2, false⟩, false, ones 2, []⟩, ⟨⟨12, 0, 3, false⟩, false, ones 5, []⟩]
/-- The program without handlers. -/
def L : Layout := ⟨[50], [(60, [1, 2])], [], []⟩
/-- The channel sends in steps 0 and 2. -/
def c : Code Nat ℚ where
  gen _ u t := (if t = 0 then [4, 0, 1, 2, 3] else if t = 2 then [0, 2, 3] else [], u)
  handle _ u _ := ([], u)
  observe _ u _ := u
/-- Six steps. -/
def acts : List (Act Nat) := [.iterate id, .iterate id, .iterate id, .iterate id, .iterate id, .iterate id]
/-- A random engine: some values that depend on the number of calls so far. -/
def draw (_ : Nat) (u : Nat) (g i : Nat) : Nat := u + g + 2 * i + 1
/-- The program with handlers for `data` and `k` winners; groups [0, 1], [2, ...]. -/
def result (k : Nat) (data : List (List UID × List UID)) :=
  Prog.run (Learn.stepSingle (Learn.machine StdpEx.o)) (addWtaHandlers (fun n => 70 + n) 0 L data).1
    (wtaCode c L.handlers.length data.length 1000 [2] k draw (fun _ u => u + 1))
    (Prog.boot (Learn.machine StdpEx.o) (addWtaHandlers (fun n => 70 + n) 0 L data).1 pops projs [(10, 50), (11, 50)] 0) acts

/-- One handler for population 1, one for population 2. -/
def separate : List (List UID × List UID) := [([1], [12]), ([2], [12])]
/-- One handler for both. -/
def together : List (List UID × List UID) := [([1, 2], [12])]

theorem run (k : Nat) (data : List (List UID × List UID)) (hok : (result k data).isOk = true) :
    ∃ s, ProgRun .single StdpEx.o (addWtaHandlers (fun n => 70 + n) 0 L data).1
      (wtaCode c L.handlers.length data.length 1000 [2] k draw (fun _ u => u + 1)) pops projs [(10, 50), (11, 50)] 0 acts s
      (ProgEx.trace (result k data)) := by
  cases hr : result k data with
  | throw w => rw [hr] at hok; cases hok
  | ub => rw [hr] at hok; cases hok
  | ok x =>
    refine ⟨x.1, by decide +kernel, by decide +kernel, ?_, hr⟩
    intro j hj
    simp only [projs, List.mem_cons, List.not_mem_nil, or_false] at hj
    rcases hj with rfl | rfl | rfl <;> rfl

example : (result 1 separate).isOk = true ∧ (result 2 together).isOk = true := by decide +kernel
/-- The hypotheses on UIDs. -/
example : ((addWtaHandlers (fun n => 70 + n) 0 L separate).1.handlers.map (·.uid)).Nodup ∧
    (addWtaHandlers (fun n => 70 + n) 0 L separate).2 = [70, 71] ∧ (1 : Nat) ∉ L.inputs ∧
    1 ∉ (addWtaHandlers (fun n => 70 + n) 0 L separate).1.handlers.map (·.uid) ∧ 70 ∉ L.inputs ∧ 70 ∉ pops.map Learn.Pop.uid := by
  decide +kernel
/-- What the populations sent and what projection 12 got, step by step: one winner from each group of each population. -/
example : (iters (ProgEx.trace (result 1 separate))).map (fun i => (firedIn i.out 1, firedIn i.out 2,
      (heardBy i.out 12).map (fun m => (m.header.senderUid, m.header.sendTime, m.neuronIndexes)))) =
    [([], [], []), ([0, 1, 2, 3, 4], [0, 1], []), ([], [], [(70, 2, [1, 3]), (71, 2, [0])]), ([0, 2, 3], [0], []),
     ([], [], [(70, 4, [0, 2]), (71, 4, [0])]), ([], [], [])] := by decide +kernel

end WtaEx

/-- C159 is false for several senders: the handler looks at the first message only, so what the other senders sent in the step is lost
even if there are fewer spikes than winners.  (Populations 1 and 2 both send neuron 0 in step 3, together one spike of each group more
than population 1 alone.) -/
theorem C159_two_senders_refuted : ∃ s tr, ProgRun .single StdpEx.o (addWtaHandlers (fun n => 70 + n) 0 WtaEx.L WtaEx.together).1
      (wtaCode WtaEx.c WtaEx.L.handlers.length WtaEx.together.length 1000 [2] 2 WtaEx.draw (fun _ u => u + 1)) WtaEx.pops
      WtaEx.projs [(10, 50), (11, 50)] 0 WtaEx.acts s tr ∧
    ∃ a b i i', tr = a ++ .iter i :: .iter i' :: b ∧
      ¬ ∃ ans, Winners [2] 2 (([1, 2] : List UID).flatMap (firedIn i.out)) ans ∧
        (heardBy i'.out 12).filter (fun x => decide (x.header.senderUid = 70)) = message 70 i'.time ans := by
  obtain ⟨s, h⟩ := WtaEx.run 2 WtaEx.together (by decide +kernel)
  refine ⟨s, _, h, ?_⟩
  have hl : (ProgEx.trace (WtaEx.result 2 WtaEx.together)).length = 6 := by decide +kernel
  have hf : ((ProgEx.trace (WtaEx.result 2 WtaEx.together)).drop 3).map (fun it => match it with
      | .iter i => some (([1, 2] : List UID).flatMap (firedIn i.out),
          (heardBy i.out 12).filter (fun x => decide (x.header.senderUid = 70)), i.time)
      | _ => none) = [some ([0, 2, 3, 0], [], 3), some ([], [⟨⟨70, 4⟩, [0, 2, 3]⟩], 4), some ([], [], 5)] := by decide +kernel
  have ha : (ProgEx.trace (WtaEx.result 2 WtaEx.together)).take 3 ++ (ProgEx.trace (WtaEx.result 2 WtaEx.together)).drop 3 =
    ProgEx.trace (WtaEx.result 2 WtaEx.together) := List.take_append_drop _ _
  generalize (ProgEx.trace (WtaEx.result 2 WtaEx.together)).drop 3 = d at hf ha
  rcases d with _ | ⟨x1, _ | ⟨x2, _ | ⟨x, _ | ⟨y, d⟩⟩⟩⟩
  · simp at hf
  · simp at hf
  · simp at hf
  · cases x1 with
    | halt => simp at hf
    | read => simp at hf
    | iter i =>
    cases x2 with
    | halt => simp at hf
    | read => simp at hf
    | iter i' =>
    simp only [List.map_cons, List.map_nil, List.cons.injEq, Option.some.injEq, Prod.mk.injEq] at hf
    refine ⟨_, [x], i, i', ha.symm, ?_⟩
    rintro ⟨ans, hw, hh⟩
    rw [hf.1.1] at hw
    rw [hf.2.1.2.1, hf.2.1.2.2] at hh
    have : ans = [0, 2, 3] := by
      unfold message at hh
      split at hh
      · cases hh
      · simpa using hh.symm
    subst this
    exact absurd (hw.1 0) (by decide)
  · simp at hf

end Knp.Props
