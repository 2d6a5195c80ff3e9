import Verif.Lemmas.Copy
import Verif.Model.MnistInference
import Verif.Props.Valid

/-!
# What a program leaves behind: C116 (reading an output channel at the end) and C162 (a network taken out of a backend)
-/

namespace Knp.Props
open Knp Knp.Bus Knp.Spec Knp.Neurons Knp.Stdp Knp.Prog

section
variable {σ N B F : Type} [Field F] [LinearOrder F]
variable {be : Prog.Backend F} {o : Ops F} {L : Layout} {c : Code σ F} {pops : List (Learn.Pop N B F)} {projs : List (Learn.Proj F)}
  {inputs : List (UID × UID)} {u0 : σ} {acts : List (Act σ)} {s : Prog.State σ (Learn.Pop N B F) (Learn.Proj F) F}
  {tr : List (Item F)}

private theorem facts (h : ProgRun be o L c pops projs inputs u0 acts s tr) :
    ∃ envs sB env pending e0, Inv (be.step o) (Learn.machine o) (hearingOfWires (projs.map (Learn.machine (N := N) (B := B) o).wire)
      (inputs ++ L.handlerInputs)) L (Learn.boot (Learn.machine o) pops projs (inputs ++ L.handlerInputs) L.chans) s tr envs sB env
      pending e0 := by
  obtain ⟨e0, hb⟩ := Prog.boot_inv (be.step o) (m := Learn.machine o) L pops projs inputs u0 h.popUids h.projUids
  have hs : ∀ H, Serves (be.step o) (Learn.machine (N := N) (B := B) o) H L.chans := by
    intro H
    cases be with
    | single => exact serves_single (Learn.machine_keeps o) H L.chans
    | multi config sched => exact serves_threads (Learn.threads_keep o config) sched H L.chans
  have := Prog.run_spec (hs _) c acts hb h.run
  simpa using this.2

/-- C116, reading everything: a program that calls `update` of an output channel after a run gets, in order, all spike messages the
channel's senders have sent in the iterations of the run, except those it has taken out before; the call changes neither the populations
and projections nor what the channel will give later. -/
theorem C116_update (h : ProgRun be o L c pops projs inputs u0 acts s tr) (n : Nat) (d : UID × List UID) (hd : L.outputs[n]? = some d) :
    (updateOut L n s).2 = bufferOf L n d.2 tr ∧ (updateOut L n s).1.outs = s.outs ∧
      (updateOut L n s).1.core.pops = s.core.pops ∧ (updateOut L n s).1.core.projs = s.core.projs ∧
      (updateOut L n (updateOut L n s).1).2 = (updateOut L n s).2 := by
  have hout := C116_contents h n d hd
  obtain ⟨_, _, _, _, _, hi⟩ := facts h
  have heps := hi.eps
  have hn : n < L.outputs.length := (List.getElem?_eq_some_iff.1 hd).1
  have hsplit : L.outputs = L.outputs.take n ++ d :: L.outputs.drop (n + 1) := by
    have : L.outputs[n] = d := (List.getElem?_eq_some_iff.1 hd).2
    rw [← this, ← List.drop_eq_getElem_cons hn, List.take_append_drop]
  have hmain : ∀ w : World F, Eps w (epsOf L (waiting L tr)) → ∃ w', collect w (L.outBase + n) .spike d.1 = (w', []) ∧
      Eps w' (epsOf L (waiting L tr)) := by
    intro w hw
    have e : ∀ X Y : List (Endpoint F), (X ++ L.outputs.map (fun o => idle (.spike, o.1, o.2)) ++ Y) =
        (X ++ (L.outputs.take n).map (fun o => idle (.spike, o.1, o.2))) ++ full [] (.spike, d.1, d.2) ::
          ((L.outputs.drop (n + 1)).map (fun o => idle (.spike, o.1, o.2)) ++ Y) := by
      intro X Y
      conv_lhs => rw [hsplit]
      simp [full, idle]
    unfold epsOf at hw ⊢
    rw [List.append_assoc _ (List.zipWith _ _ _), e] at hw ⊢
    obtain ⟨w', h1, h2, _⟩ := collect_spec hw
    refine ⟨w', ?_, h2⟩
    have hb : ((waiting L tr).channels.map (fun (ms : List SpikeMessage) => (talking (ms.map .spike) : Endpoint F)) ++
        (L.outputs.take n).map (fun (o : UID × List UID) => idle (.spike, o.1, o.2))).length + 1 = L.outBase + n := by
      rw [List.length_append, List.length_map, List.length_map, List.length_take, hi.lenC]
      unfold Layout.outBase
      omega
    rw [← hb]
    exact h1
  obtain ⟨w', h1, h2⟩ := hmain _ heps
  have key : updateOut L n s = ({ s with core := { s.core with world := w' } }, bufferOf L n d.2 tr) := by
    unfold updateOut
    rw [hd, hout]
    simp only [h1]
    have hset : s.outs.set n ⟨bufferOf L n d.2 tr ++ []⟩ = s.outs := by
      rw [List.append_nil]
      obtain ⟨hl, hg⟩ := List.getElem?_eq_some_iff.1 hout
      rw [← hg]
      exact List.set_getElem_self hl
    simp only [Io.OutputChannel.update, Sys.spikesIn, List.filterMap_nil] at *
    rw [hset, List.append_nil]
  obtain ⟨w2, h3, _⟩ := hmain _ h2
  refine ⟨by rw [key], by rw [key], by rw [key], by rw [key], ?_⟩
  rw [key]
  unfold updateOut
  simp only [hd, hout, h3]
  simp [Io.OutputChannel.update, Sys.spikesIn]

/-- C162, a network taken out of a backend (`get_network_copy`, wholly or in part) after any run of a program with a valid network, without
the messages waiting in it, is a valid network. -/
theorem C162_copy (h : ProgRun .single o L c pops projs inputs u0 acts s tr) {out : F → F → Prop} (hv : ValidNet out pops projs)
    (keepPop keepProj : UID → Bool) (lock : Learn.Proj F → Bool) :
    ValidNet out (s.core.pops.filter (fun q => keepPop q.uid))
      ((s.core.projs.filter (fun j => keepProj j.ident.uid)).map (fun j => { j with queue := [], locked := lock j })) := by
  obtain ⟨h1, h2, _⟩ := prog_keeps h
  exact Learn.valid_copy hv h1 h2 keepPop keepProj lock

end

/-- In the run of `ProgEx` the second output channel gives, at the end, what has not been read. -/
example : (match ProgEx.result with
    | .ok r => (updateOut ProgEx.L 1 r.1).2.map (fun m => (m.header.senderUid, m.header.sendTime))
    | _ => []) = [(50, 0), (2, 4), (70, 4)] := by decide +kernel
/-- C162: population 2 and projection 10 of that run, taken out of the backend, are a valid network. -/
example : ∃ s, ValidNet (fun w v => v = w) ((s : Prog.State Nat (Learn.Pop (Lif ℚ) (Blifat ℚ) ℚ) (Learn.Proj ℚ) ℚ).core.pops.filter (fun q => q.uid == 2))
    ((s.core.projs.filter (fun j => j.ident.uid == 10)).map (fun j => { j with queue := [], locked := true })) := by
  obtain ⟨s, h⟩ := ProgEx.run
  exact ⟨s, C162_copy h ValidEx.valid (· == 2) (· == 10) (fun _ => true)⟩

end Knp.Props
