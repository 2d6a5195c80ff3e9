import Verif.Model.Network

/-!
# `knp::framework::ModelLoader`

Models `knp/base-framework/impl/model_loader.cpp`.  `init_channels` walks the *buckets* of an
`unordered_multimap`; the hash function is an arbitrary `bucketOf` and the bucket count an arbitrary
number, so theorems hold for every hash, and bucket contents appear in the arbitrary order of the
channel list.

Recorded effects: the channel objects created, the subscriptions made on the backend's endpoint
(receiver projection, sender channel), the subscription of every output channel's endpoint, and which
entities were tagged.  What a subscription does is modelled in `Verif.Model.Bus`.
-/

namespace Knp

/-- `InputChannel` as the loader sees it: UID and data generator. -/
structure InCh (G : Type) where
  uid : UID
  gen : G
deriving Repr, DecidableEq

/-- `OutputChannel`: UID and the senders its endpoint subscribed the UID to. -/
structure OutCh where
  uid : UID
  senders : List UID
deriving Repr, DecidableEq

/-- The state `ModelLoader::load` changes. -/
structure Loader (G : Type) where
  inChannels : List (InCh G)
  outChannels : List OutCh
  /-- `(projection, channel)` subscriptions made on the backend endpoint -/
  subs : List (UID × UID)
  /-- projections tagged as input -/
  taggedIn : List UID
  /-- populations tagged as output -/
  taggedOut : List UID
deriving Repr, DecidableEq

namespace Loader
variable {G P J : Type}

/-- A loader before `load`. -/
def empty : Loader G := ⟨[], [], [], [], []⟩

/-- Loop of `gen_input_channel` over the projections (model_loader.cpp:82-96). -/
def subscribeInputs (m : FModel P J) (channel : UID) : List UID → Loader G → Outcome (Loader G)
  | [], s => .ok s
  | p :: ps, s =>
    match m.network.getProjection p with
    | .ok _ => subscribeInputs m channel ps
        { s with subs := s.subs ++ [(p, channel)], taggedIn := s.taggedIn ++ [p] }
    | .throw w => .throw w
    | .ub => .ub

/-- `gen_input_channel` (model_loader.cpp:67-97); `iMap` is `i_map_`. -/
def genInput (iMap : UID → Option G) (m : FModel P J) (channel : UID) (ps : List UID)
    (s : Loader G) : Outcome (Loader G) :=
  match iMap channel with
  | none => .throw "Incorrect input channel UID"
  | some g => subscribeInputs m channel ps { s with inChannels := s.inChannels ++ [⟨channel, g⟩] }

/-- Tagging loop of `gen_output_channel` (model_loader.cpp:109-119). -/
def tagOutputs (m : FModel P J) : List UID → Loader G → Outcome (Loader G)
  | [], s => .ok s
  | p :: ps, s =>
    match m.network.getPopulation p with
    | .ok _ => tagOutputs m ps { s with taggedOut := s.taggedOut ++ [p] }
    | .throw w => .throw w
    | .ub => .ub

/-- `gen_output_channel` (model_loader.cpp:100-120). -/
def genOutput (m : FModel P J) (channel : UID) (ps : List UID) (s : Loader G) : Outcome (Loader G) :=
  tagOutputs m ps { s with outChannels := s.outChannels ++ [⟨channel, ps⟩] }

/-- The elements of bucket `i` of the multimap. -/
def bucket (bucketOf : UID → Nat) (channels : List (UID × UID)) (i : Nat) : List (UID × UID) :=
  channels.filter (fun c => bucketOf c.1 == i)

/-- The loop of `init_channels` (model_loader.cpp:37-63) over the listed bucket indices: an empty bucket
is skipped; otherwise the key of its *first* element is the channel and *all* its elements are the
entities. -/
def initChannels (bucketOf : UID → Nat) (channels : List (UID × UID))
    (gen : UID → List UID → Loader G → Outcome (Loader G)) : List Nat → Loader G → Outcome (Loader G)
  | [], s => .ok s
  | i :: is, s =>
    match bucket bucketOf channels i with
    | [] => initChannels bucketOf channels gen is s
    | c :: rest =>
      match gen c.1 ((c :: rest).map Prod.snd) s with
      | .ok s' => initChannels bucketOf channels gen is s'
      | .throw w => .throw w
      | .ub => .ub

/-- `ModelLoader::load` (model_loader.cpp:123-141) without the two final `load_all_*` calls of the
backend (modelled in `Verif.Model.BackendLoad`).  Input and output multimap have their own bucket
counts. -/
def load (bucketIn bucketOut : UID → Nat) (countIn countOut : Nat) (iMap : UID → Option G)
    (m : FModel P J) (s : Loader G) : Outcome (Loader G) :=
  match initChannels bucketIn m.inChannels (genInput iMap m) (List.range countIn) s with
  | .ok s' => initChannels bucketOut m.outChannels (genOutput m) (List.range countOut) s'
  | .throw w => .throw w
  | .ub => .ub

/-- `get_input_channel` (model_loader.cpp:144-161). -/
def getInputChannel (s : Loader G) (u : UID) : Outcome (InCh G) :=
  match s.inChannels.find? (fun c => c.uid == u) with
  | some c => .ok c
  | none => .throw "Wrong input channel UID."

/-- `get_output_channel` (model_loader.cpp:164-181). -/
def getOutputChannel (s : Loader G) (u : UID) : Outcome OutCh :=
  match s.outChannels.find? (fun c => c.uid == u) with
  | some c => .ok c
  | none => .throw "Wrong output channel UID."

end Loader
end Knp
