import Verif.Model.Devices

/-! # Devices: properties -/

namespace Knp.Props
open Knp Knp.Dev

/-! ## C151: the processors of the machine -/

theorem thread_map {α β γ : Type} (f : α → Nat → β × Nat) (h : β → γ) (g : α → γ) (H : ∀ a fr, h (f a fr).1 = g a) : ∀ (l : List α) (fr : Nat),
    (Dev.thread f l fr).1.map h = l.map g := by
  intro l
  induction l with
  | nil => intro fr; rfl
  | cons a l ih =>
    intro fr
    show h (f a fr).1 :: (Dev.thread f l (f a fr).2).1.map h = _
    rw [H, ih]; rfl

theorem thread_fresh {α β : Type} (f : α → Nat → β × Nat) (u : β → Nat) (H : ∀ a fr, fr ≤ u (f a fr).1 ∧ u (f a fr).1 < (f a fr).2) :
    ∀ (l : List α) (fr : Nat), fr ≤ (Dev.thread f l fr).2 ∧ (∀ b ∈ (Dev.thread f l fr).1, fr ≤ u b ∧ u b < (Dev.thread f l fr).2) ∧
      ((Dev.thread f l fr).1.map u).Nodup := by
  intro l
  induction l with
  | nil => intro fr; exact ⟨Nat.le_refl _, (fun b h => by cases h), List.nodup_nil⟩
  | cons a l ih =>
    intro fr
    obtain ⟨h1, h2, h3⟩ := ih (f a fr).2
    have ha := H a fr
    have e1 : (Dev.thread f (a :: l) fr).1 = (f a fr).1 :: (Dev.thread f l (f a fr).2).1 := rfl
    have e2 : (Dev.thread f (a :: l) fr).2 = (Dev.thread f l (f a fr).2).2 := rfl
    rw [e1, e2]
    refine ⟨by omega, ?_, ?_⟩
    · intro b hb
      rcases List.mem_cons.1 hb with e | e
      · subst e; exact ⟨ha.1, by omega⟩
      · have := h2 b e; exact ⟨by omega, this.2⟩
    · rw [List.map_cons, List.nodup_cons]
      refine ⟨?_, h3⟩
      intro hm
      obtain ⟨b, hb, he⟩ := List.mem_map.1 hm
      have := h2 b hb
      omega

/-- **C151.**  `get_devices` tells which processors there are: in every call the same UIDs, and the socket number of each can be read. -/
def C151_statement : Prop :=
  ∀ (named : String → UID) (pl : Platform) (fresh fresh' : Nat), (getDevices named pl fresh).2 ≤ fresh' →
    (getDevices named pl fresh').1.map (·.uid) = (getDevices named pl fresh).1.map (·.uid) ∧
      (getDevices named pl fresh).1.map socketNumber = (sockets pl).map .ok

theorem move_name (pl : Platform) (c : Cpu) (fr : Nat) : (move pl c fr).1.name = c.name := by cases pl <;> rfl
theorem move_uid (pl : Platform) (c : Cpu) (fr : Nat) : (move pl c fr).1.uid = fr ∧ (move pl c fr).2 = fr + 1 := by cases pl <;> exact ⟨rfl, rfl⟩

/-- There is one device for each processor that is online, with its name; but its UID is a new one in every call, and on x86 reading its socket number
reads memory that was never written. -/
theorem C151_processors_partial (named : String → UID) (pl : Platform) (fresh : Nat) :
    (getDevices named pl fresh).1.map (·.name) = (sockets pl).map (nameOf pl) ∧
      ((getDevices named pl fresh).1.map (·.uid)).Nodup ∧
      (∀ d ∈ (getDevices named pl fresh).1, fresh ≤ d.uid ∧ d.uid < (getDevices named pl fresh).2) ∧
      (getDevices named pl fresh).1.map socketNumber = (sockets pl).map (fun k => match pl with | .x86 _ _ => Outcome.ub | .unknown => .ok k) := by
  have e : getDevices named pl fresh = Dev.thread (move pl) (listProcessors named pl fresh).1 (listProcessors named pl fresh).2 := rfl
  rw [e]
  obtain ⟨h1, h2, h3⟩ := thread_fresh (move pl) (fun c : Cpu => c.uid)
    (fun c fr => by obtain ⟨a, b⟩ := move_uid pl c fr; show fr ≤ (move pl c fr).1.uid ∧ (move pl c fr).1.uid < (move pl c fr).2; rw [a, b]; exact ⟨Nat.le_refl _, Nat.lt_succ_self _⟩)
    (listProcessors named pl fresh).1 (listProcessors named pl fresh).2
  have hl : fresh ≤ (listProcessors named pl fresh).2 := by
    refine (thread_fresh (fun k fresh => move pl (construct named pl k fresh).1 (construct named pl k fresh).2) (fun c : Cpu => c.uid) ?_ (sockets pl) fresh).1
    intro k fr
    obtain ⟨a, b⟩ := move_uid pl (construct named pl k fr).1 (construct named pl k fr).2
    show fr ≤ (move pl _ _).1.uid ∧ (move pl _ _).1.uid < (move pl _ _).2
    rw [a, b]
    have : (construct named pl k fr).2 = fr + 1 := rfl
    rw [this]
    exact ⟨Nat.le_succ _, Nat.lt_succ_self _⟩
  refine ⟨?_, h3, ?_, ?_⟩
  · rw [thread_map (move pl) (fun c : Cpu => c.name) (fun c : Cpu => c.name) (fun a fr => move_name pl a fr)]
    exact thread_map (fun k fresh => move pl (construct named pl k fresh).1 (construct named pl k fresh).2) (fun c : Cpu => c.name) (nameOf pl)
      (fun k fr => move_name pl _ _) (sockets pl) fresh
  · intro d hd
    have := h2 d hd
    exact ⟨Nat.le_trans hl this.1, this.2⟩
  · cases pl with
    | x86 b on =>
      rw [thread_map (move (.x86 b on)) socketNumber (fun _ => Outcome.ub) (fun a fr => rfl)]
      have := congrArg List.length (thread_map (fun k fresh => move (.x86 b on) (construct named (.x86 b on) k fresh).1 (construct named (.x86 b on) k fresh).2)
        (fun _ => ()) (fun _ => ()) (fun _ _ => rfl) (sockets (.x86 b on)) fresh)
      rw [List.length_map, List.length_map] at this
      apply List.ext_getElem?
      intro i
      rw [List.getElem?_map, List.getElem?_map]
      rcases Nat.lt_or_ge i (sockets (.x86 b on)).length with h | h
      · have h' : i < (listProcessors named (.x86 b on) fresh).1.length := by
          have e2 : (listProcessors named (.x86 b on) fresh).1.length = (sockets (.x86 b on)).length := this
          omega
        rw [List.getElem?_eq_getElem h, List.getElem?_eq_getElem h']; rfl
      · have h' : (listProcessors named (.x86 b on) fresh).1.length ≤ i := by
          have e2 : (listProcessors named (.x86 b on) fresh).1.length = (sockets (.x86 b on)).length := this
          omega
        rw [List.getElem?_eq_none h, List.getElem?_eq_none h']; rfl
    | unknown => rfl

/-- The devices by name: one for every socket that is online, called by the brand of the processor and the number of the socket; one called
"Unknown CPU 0" where processors cannot be told apart. -/
theorem C151_names (named : String → UID) (fresh : Nat) :
    (∀ (brand : String) (online : List Bool), (getDevices named (.x86 brand online) fresh).1.map (·.name) =
        (online.zipIdx.filter (·.1)).map (fun p => brand ++ " " ++ toString p.2)) ∧
      (getDevices named .unknown fresh).1.map (·.name) = ["Unknown CPU 0"] := by
  refine ⟨fun brand online => ?_, ?_⟩
  · rw [(C151_processors_partial named (.x86 brand online) fresh).1]
    show ((List.range online.length).filter (fun k => online.getD k false)).map (fun k => brand ++ " " ++ toString k) = _
    have key : ∀ (l : List Bool) (n : Nat), (List.range' n l.length).filter (fun k => l.getD (k - n) false) =
        ((l.zipIdx n).filter (·.1)).map (·.2) := by
      intro l
      induction l with
      | nil => intro n; rfl
      | cons b l ih =>
        intro n
        rw [List.length_cons, List.range'_succ, List.zipIdx_cons, List.filter_cons, List.filter_cons]
        have e : (List.range' (n + 1) l.length).filter (fun k => (b :: l).getD (k - n) false) =
            (List.range' (n + 1) l.length).filter (fun k => l.getD (k - (n + 1)) false) := by
          apply List.filter_congr
          intro k hk
          have := List.mem_range'_1.1 hk
          have e : k - n = (k - (n + 1)) + 1 := by omega
          rw [e]; rfl
        rw [e, ih (n + 1)]
        have e2 : (b :: l).getD (n - n) false = b := by rw [Nat.sub_self]; rfl
        rw [e2]
        cases b <;> simp
    have := key online 0
    rw [← List.range_eq_range'] at this
    simp only [Nat.sub_zero] at this
    rw [this, List.map_map]
    rfl
  · rw [(C151_processors_partial named .unknown fresh).1]
    show ["Unknown CPU " ++ toString 0] = _
    decide

theorem C151_processors_refuted : ¬ C151_statement := by
  intro h
  have := (h (fun _ => 7) .unknown 100 103 (by decide)).1
  revert this; decide

/-- On x86 the socket number alone refutes it. -/
theorem C151_socket : ∀ (named : String → UID) (brand : String) (fresh : Nat),
    (getDevices named (.x86 brand [true, false, true]) fresh).1.map socketNumber = [.ub, .ub] := by
  intro named brand fresh
  rw [(C151_processors_partial named (.x86 brand [true, false, true]) fresh).2.2.2]
  rfl

/-- No UID the program has got so far selects a processor. -/
theorem C151_never_selected (named : String → UID) (pl : Platform) (fresh : Nat) (uids : List UID) (hold : ∀ u ∈ uids, u < fresh) :
    Dev.selectDevices (·.uid) (getDevices named pl fresh).1 [] uids = if uids = [] then .ok [] else .throw "Not all devices were selected." := by
  have hf : (getDevices named pl fresh).1.find? (fun d => uids.contains d.uid) = none := by
    rw [List.find?_eq_none]
    intro d hd
    have h1 := ((C151_processors_partial named pl fresh).2.2.1 d hd).1
    simp only [List.contains_iff_mem]
    intro hc
    have h2 := hold _ hc
    exact absurd (show d.uid < d.uid from Nat.lt_of_lt_of_le h2 h1) (Nat.lt_irrefl _)
  unfold Dev.selectDevices
  rw [hf]
  cases uids with
  | nil => rfl
  | cons u l => rfl

example : (getDevices (fun _ => 7) (.x86 "CPU" [true, false, true]) 100).1 = [⟨104, none, "CPU 0"⟩, ⟨105, none, "CPU 2"⟩] := by decide

/-! ## C152: selecting devices -/

/-- **C152.**  Selecting some of a backend's devices selects exactly those; selecting a device that is not there throws.  `found` are the devices of the
backend, the same ones in each call. -/
def C152_statement : Prop :=
  ∀ (D : Type) (uid : D → UID) (found : List D), (found.map uid).Nodup → ∀ (current : List D) (uids : List UID), uids.Nodup →
    (∀ u ∈ uids, ∃ d ∈ found, uid d = u) → ∃ ds, Dev.selectDevices uid found current uids = .ok ds ∧ ∀ d, d ∈ ds ↔ d ∈ found ∧ uid d ∈ uids

variable {D : Type}

/-- One device, nothing selected before: it is selected, or an exception tells that it is not there. -/
theorem C152_select_partial (uid : D → UID) (found : List D) (hn : (found.map uid).Nodup) (u : UID) :
    (∀ d ∈ found, uid d = u → Dev.selectDevices uid found [] [u] = .ok [d]) ∧
      ((∀ d ∈ found, uid d ≠ u) → Dev.selectDevices uid found [] [u] = .throw "Not all devices were selected.") := by
  constructor
  · intro d hd hu
    unfold Dev.selectDevices
    have : found.find? (fun d => [u].contains (uid d)) = some d := by
      induction found with
      | nil => cases hd
      | cons a l ih =>
        rw [List.map_cons, List.nodup_cons] at hn
        rcases List.mem_cons.1 hd with e | e
        · subst e; rw [List.find?_cons_of_pos (by simp [hu])]
        · have hne : uid a ≠ u := by
            intro he
            exact hn.1 (List.mem_map.2 ⟨d, e, hu.trans he.symm⟩)
          rw [List.find?_cons_of_neg (by simpa using hne)]
          exact ih hn.2 e
    rw [this]; rfl
  · intro h
    unfold Dev.selectDevices
    have : found.find? (fun d => [u].contains (uid d)) = none := by
      rw [List.find?_eq_none]
      intro d hd
      simpa using h d hd
    rw [this]; rfl

/-- In general at most one device is added, and nothing that was selected before is removed. -/
theorem C152_exact (uid : D → UID) (found current : List D) (uids : List UID) (ds : List D) (h : Dev.selectDevices uid found current uids = .ok ds) :
    (∃ d ∈ found, uid d ∈ uids ∧ ds = current ++ [d]) ∨ ((∀ d ∈ found, uid d ∉ uids) ∧ uids.length = current.length ∧ ds = current) := by
  unfold Dev.selectDevices at h
  cases hf : found.find? (fun d => uids.contains (uid d)) with
  | some d =>
    rw [hf] at h
    simp only [Outcome.ok.injEq] at h
    have h1 := List.find?_some hf
    exact .inl ⟨d, List.mem_of_find?_eq_some hf, List.contains_iff_mem.1 h1, h.symm⟩
  | none =>
    rw [hf] at h
    simp only at h
    split at h
    · cases h
    · rename_i hl
      simp only [Outcome.ok.injEq] at h
      refine .inr ⟨?_, Decidable.not_not.1 hl, h.symm⟩
      intro d hd hm
      rw [List.find?_eq_none] at hf
      exact hf d hd (List.contains_iff_mem.2 hm)

/-- Two devices: only the first one is selected. -/
theorem C152_select_refuted : ¬ C152_statement := by
  intro h
  obtain ⟨ds, h1, h2⟩ := h Nat id [1, 2] (by decide) [] [1, 2] (by decide) (by decide)
  have e : Dev.selectDevices id [1, 2] ([] : List Nat) [1, 2] = .ok [1] := by decide
  rw [e] at h1
  cases h1
  exact absurd ((h2 2).2 (by decide)) (by decide)

/-- A device that does not exist is "selected" once another one is. -/
theorem C152_missing (uid : D → UID) (found : List D) (d : D) (u : UID) (h : ∀ d ∈ found, uid d ≠ u) :
    Dev.selectDevices uid found [d] [u] = .ok [d] := by
  unfold Dev.selectDevices
  have : found.find? (fun d => [u].contains (uid d)) = none := by
    rw [List.find?_eq_none]
    intro d hd
    simpa using h d hd
  rw [this]; rfl

example : ([1, 2].map (id : Nat → UID)).Nodup ∧ Dev.selectDevices id [1, 2] ([] : List Nat) [2] = .ok [2] ∧
    Dev.selectDevices id [1, 2] ([] : List Nat) [3] = .throw "Not all devices were selected." ∧ Dev.selectDevices id [1, 2] [1] [3] = .ok [1] := by
  refine ⟨by decide, by decide, by decide, by decide⟩

end Knp.Props
