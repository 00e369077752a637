import Verif.Model.Unwind
import Verif.Spec.Storage

/-!
# What a user may rely on about a storage after a panic in their own code

A call that unwinds is an event too: a `Cut`. `cutStep` says what it leaves behind. It only uses the table,
logs and callbacks of `StoSpec`.
-/
namespace Verif.StoSpec
variable {T : Type}

/-- A call during which code of the user panicked. -/
inductive Cut (T : Type) where
  /-- `on_insertion(e, &v)` panicked, or the destructor of the component of an older entity did -/
  | insert (e : EId) (v : T) (w : Where)
  /-- `on_removal` panicked inside `remove(e)`, or the destructor of the component of an older entity -/
  | remove (e : EId) (c : Option T) (w : Where)
  /-- the same inside `delete(e)`, where the destructor of the deleted component may panic too -/
  | delete (e : EId) (now : Nat) (c : Option T) (w : Where)
  /-- the closure of `apply` / `apply_mut` panicked, after writing these components -/
  | apply (ws : List (EId × T)) (now : Nat)
  /-- the crate refused the arguments of `apply` / `apply_mut` by panicking -/
  | refused
  /-- the comparator of a sort panicked -/
  | sort
  /-- a destructor panicked inside `clear` -/
  | clear (now : Nat) (rows : List (EId × T))
  /-- `retain` / `retain_mut`: the calls of the closure that were carried out, and the one during or after
  which the panic came -/
  | retain (now : Nat) (calls : List (Call T)) (last : Call T) (w : Where)

/-- The component is gone, the callback was told, but neither log mentions it. -/
def removedSilently (a : Sto T) (e : EId) (c : Option T) : Sto T :=
  { a with
    rows := setRow a.rows e.idx (removeRow a e)
    remCalls := match c with
      | some v => if a.hookRem then a.remCalls ++ [(e, v)] else a.remCalls
      | none => a.remCalls }

/-- The effect of calls of the closure of `retain`, one after the other. -/
def retainedAll (a : Sto T) (now : Nat) (calls : List (Call T)) : Sto T :=
  calls.foldl (fun a c => step a (.retained now [c])) a

/-- What a call that unwound leaves behind. -/
def cutStep (a : Sto T) : Cut T → Sto T
  -- only the call of the callback happened
  | .insert e v .hook =>
    { a with insCalls := if a.hookIns && accepts a e then a.insCalls ++ [(e, v)] else a.insCalls }
  -- the value is in place, but the row still belongs to the older entity
  | .insert e v _ =>
    { a with
      rows := setRow a.rows e.idx ((a.rows e.idx).map fun r => { r with val := v })
      insCalls := if a.hookIns && accepts a e then a.insCalls ++ [(e, v)] else a.insCalls }
  | .remove e c _ => removedSilently a e c
  | .delete e _ c .hook => removedSilently a e c
  -- the destructor runs last
  | .delete e now c _ => step a (.deleted e now c)
  | .apply ws now => step a (.wrote ws now)
  | .refused => a
  | .sort => a
  | .clear now rows => step a (.cleared now rows)
  -- what the last call wrote stays, and its component stays
  | .retain now calls last .closure =>
    step (retainedAll a now calls) (.retained now [{ last with keep := true }])
  -- the last component is gone, but not logged as deleted
  | .retain now calls last .hook =>
    { step (retainedAll a now calls) (.retained now [last]) with
      deleted := (retainedAll a now calls).deleted }
  | .retain now calls last _ => retainedAll a now (calls ++ [last])

/-- A call, finished or not. -/
inductive PEvent (T : Type) where
  | done (ev : Event T)
  | cut (c : Cut T)

def pstep (a : Sto T) : PEvent T → Sto T
  | .done ev => step a ev
  | .cut c => cutStep a c

def pafter (a : Sto T) (h : List (PEvent T)) : Sto T := h.foldl pstep a

/-- Does the closure say that the component stays? A closure that panics says nothing. -/
def Verdict.stays : Verdict → Bool
  | .drop _ _ => false
  | _ => true

/-- The closure given to `retain_mut`, also keeping a record of its own calls. -/
def recordingU {σ : Type} (f : σ → EId → T → Option T × Verdict × σ) :
    σ × List (Call T) → EId → T → Option T × Verdict × (σ × List (Call T)) :=
  fun st e v =>
    let r := f st.1 e v
    (r.1, r.2.1, (r.2.2, st.2 ++ [⟨e, v, r.1, Verdict.stays r.2.1⟩]))

/-- The same for `retain`. -/
def recordingRefU {σ : Type} (f : σ → EId → T → Verdict × σ) :
    σ × List (Call T) → EId → T → Verdict × (σ × List (Call T)) :=
  fun st e v =>
    let r := f st.1 e v
    (r.1, (r.2, st.2 ++ [⟨e, v, none, Verdict.stays r.1⟩]))

/-- One call on the model, finished or unwound out of user code. An iterator given to `bulk_add_entity`
that panics is left out, see `C72_bulk_fails`. -/
inductive PStep : SparseSet T → PEvent T → SparseSet T → Prop where
  | done {s ev s'} : Step s ev s' → PStep s (.done ev) s'
  | insert {s e v now hp dp w s'} : Valid e → s.insertU e v now hp dp = .ok (.unwound w, s') →
      PStep s (.cut (.insert e v w)) s'
  | remove {s e now hp dp c w s'} : Valid e → s.get e = .ok c →
      s.dynRemoveU e now hp dp = .ok (.unwound w, s') → PStep s (.cut (.remove e c w)) s'
  | delete {s e now hp dp c w s'} : Valid e → s.get e = .ok c →
      s.dynDeleteU e now hp dp = .ok (.unwound w, s') → PStep s (.cut (.delete e now c w)) s'
  | apply {s a b now x y s'} {R : Type} {g : T → T → T} : Valid a → Valid b →
      s.get a = .ok (some x) → s.get b = .ok (some y) →
      s.applyU (R := R) a b (fun x y => (g x y, none)) now = .ok (.unwound .closure, s') →
      PStep s (.cut (.apply [(a, g x y)] now)) s'
  | applyMut {s a b now x y s'} {R : Type} {g : T → T → T × T} : Valid a → Valid b →
      s.get a = .ok (some x) → s.get b = .ok (some y) →
      s.applyMutU (R := R) a b (fun x y => ((g x y).1, (g x y).2, none)) now =
        .ok (.unwound .closure, s') →
      PStep s (.cut (.apply [(a, (g x y).1), (b, (g x y).2)] now)) s'
  | refused {s a b now s'} {R : Type} {f : T → T → T × Option R} : Valid a → Valid b →
      s.applyU a b f now = .ok (.unwound .refused, s') → PStep s (.cut .refused) s'
  | refusedMut {s a b now s'} {R : Type} {f : T → T → T × T × Option R} : Valid a → Valid b →
      s.applyMutU a b f now = .ok (.unwound .refused, s') → PStep s (.cut .refused) s'
  | sort {s perm s'} : s.sortU perm = .ok (.unwound .closure, s') → PStep s (.cut .sort) s'
  | clear {s now dp w s'} : s.clearU now dp = .ok (.unwound w, s') →
      PStep s (.cut (.clear now (s.dense.zip s.data))) s'
  | retain {s now w calls last s'} {σ : Type} {st st' : σ} {f : σ → EId → T → Verdict × σ} :
      s.retainU now (st, []) (recordingRefU f) = .ok (.unwound w, (st', calls ++ [last]), s') →
      PStep s (.cut (.retain now calls last w)) s'
  | retainMut {s now w calls last s'} {σ : Type} {st st' : σ}
      {f : σ → EId → T → Option T × Verdict × σ} :
      s.retainMutU now (st, []) (recordingU f) = .ok (.unwound w, (st', calls ++ [last]), s') →
      PStep s (.cut (.retain now calls last w)) s'

/-- The calls `h`, oldest first, each finished or unwound, lead from `s0` to `s`. -/
inductive PRun (s0 : SparseSet T) : List (PEvent T) → SparseSet T → Prop where
  | nil : PRun s0 [] s0
  | snoc {h s ev s'} : PRun s0 h s → PStep s ev s' → PRun s0 (h ++ [ev]) s'

/-- No insertion took over the row of an older entity. -/
def PNoTakeover (h : List (PEvent T)) : Prop :=
  ∀ e v now, PEvent.done (.inserted e v now .otherComponentOverride) ∉ h

end Verif.StoSpec
