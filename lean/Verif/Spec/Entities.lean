import Verif.Model.Entities

/-!
# What a user may rely on about entity ids

Histories of the calls made on an entity store, and what they say about which ids are alive and which
slots can be recycled, without any reference to how the store represents them.
-/
namespace Verif.EntSpec

/-- One call made on the store together with its result. -/
inductive Event where
  /-- `add_entity` returned this id -/
  | added (e : EId)
  /-- a bulk add returned these ids -/
  | bulkAdded (es : List EId)
  /-- `delete(e)` returned `ok` -/
  | deleted (e : EId) (ok : Bool)
  /-- `spawn(e)` returned `ok` -/
  | spawned (e : EId) (ok : Bool)
  /-- the store was cleared -/
  | cleared
  deriving DecidableEq, Repr

/-- The ids created by one call. -/
def Event.created : Event → List EId
  | .added e => [e]
  | .bulkAdded es => es
  | _ => []

/-- The ids created or made alive by one call. -/
def Event.issued : Event → List EId
  | .added e => [e]
  | .bulkAdded es => es
  | .spawned e true => [e]
  | _ => []

/-- All ids returned by adds along a history, oldest first. -/
def created (h : List Event) : List EId := h.flatMap Event.created
/-- All ids that ever were alive along a history. -/
def issued (h : List Event) : List EId := h.flatMap Event.issued

/-- The ids alive after a history, as the English property says: an add makes its ids alive, a delete
ends that id, a successful spawn makes its id alive and ends any other id with the same index, a clear
ends all. -/
def aliveStep (A : List EId) : Event → List EId
  | .added e => A ++ [e]
  | .bulkAdded es => A ++ es
  | .deleted e _ => A.filter (· ≠ e)
  | .spawned e true => A.filter (·.idx ≠ e.idx) ++ [e]
  | .spawned _ false => A
  | .cleared => []
def alive (h : List Event) : List EId := h.foldl aliveStep []

/-- The same, except that the deletion of an id whose slot has no further generation (65533 and 65534) changes nothing: what the code
does (see `C04_fails`). -/
def lastingStep (A : List EId) : Event → List EId
  | .deleted e _ => if e.gen < 65533 then A.filter (· ≠ e) else A
  | ev => aliveStep A ev
def lasting (h : List Event) : List EId := h.foldl lastingStep []

/-- Number of slots, and the queue of slots to recycle, oldest first. -/
structure Slots where
  count : Nat
  queue : List Nat
  deriving DecidableEq, Repr

/-- An add takes the oldest slot of the queue or else a new one; a bulk add takes new slots only; a
successful delete appends the slot if it has a further generation; spawning takes the slot out of the queue, or allocates it together
with all the slots below it, which become recyclable; a clear makes all slots recyclable. -/
def slotsStep (s : Slots) : Event → Slots
  | .added _ => match s.queue with
    | [] => { s with count := s.count + 1 }
    | _ :: q => { s with queue := q }
  | .bulkAdded es => { s with count := s.count + es.length }
  | .deleted e true => if e.gen < 65533 then { s with queue := s.queue ++ [e.idx] } else s
  | .deleted _ false => s
  | .spawned e true =>
    { count := max s.count (e.idx + 1)
      queue := s.queue.erase e.idx ++ List.range' s.count (e.idx - s.count) }
  | .spawned _ false => s
  | .cleared => { s with queue := List.range s.count }
def slots (h : List Event) : Slots := h.foldl slotsStep ⟨0, []⟩

/-- The calls of the model, as transitions labelled with their event. -/
inductive Step : Entities → Event → Entities → Prop where
  | add {s e s'} : s.generate = .ok (e, s') → Step s (.added e) s'
  | bulk {s n es s'} : s.bulkGenerate n = .ok (es, s') → Step s (.bulkAdded es) s'
  | delete {s e b s'} : s.deleteUnchecked e = .ok (b, s') → Step s (.deleted e b) s'
  | spawn {s e b s'} : e.WF → s.spawn e = .ok (b, s') → Step s (.spawned e b) s'
  | clear {s s'} : s.clear = .ok s' → Step s .cleared s'

/-- States reachable from an empty store (with or without a deletion callback) and the history leading
to them. Two restrictions, both excluded cases being treated separately: the store never grows past
`2^48 - 3` slots (it would need two petabytes), and it is only cleared when no slot has used up its
65533 generations. -/
inductive Reach : Entities → List Event → Prop where
  | init (hook : Bool) : Reach { Entities.new with hook := hook } []
  | step {s h ev s'} : Reach s h → Step s ev s' → s'.data.length < EId.maxIndex →
      (ev = .cleared → ∀ e ∈ s.data, e.gen < 65533) → Reach s' (h ++ [ev])

end Verif.EntSpec
