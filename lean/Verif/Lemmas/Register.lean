import Verif.Spec.Register
import Verif.Lemmas.World
import Verif.Lemmas.SerdeWorld
import Verif.Props.Track
import Verif.Spec.Registry

/-! No call of the API turns tracking off, except `clone_storages_to` in its target. -/
namespace Verif.SparseSet
variable {T : Type}

/-- What the storage tracks. -/
def flags (s : SparseSet T) : Bool × Bool × Bool × Bool := (s.trkIns, s.trkMod, s.trkDel, s.trkRem)

theorem flags_callIns (s : SparseSet T) (e : EId) (v : T) : (s.callIns e v).flags = s.flags := by
  unfold callIns; split <;> rfl

theorem flags_callRem (s : SparseSet T) (e : EId) (v : T) : (s.callRem e v).flags = s.flags := by
  unfold callRem; split <;> rfl

theorem bind_ok {α β : Type} {x : Res α} {f : α → Res β} {b : β} (h : (x >>= f) = .ok b) :
    ∃ a, x = .ok a ∧ f a = .ok b := by
  cases x with
  | error e => cases h
  | ok a => exact ⟨a, rfl, h⟩

theorem insert_flags {s s' : SparseSet T} {e : EId} {v : T} {now : Nat} {r : InsertionResult T}
    (h : s.insert e v now = .ok (r, s')) : s'.flags = s.flags := by
  unfold SparseSet.insert at h
  obtain ⟨sp, _, h⟩ := bind_ok h
  obtain ⟨x, _, h⟩ := bind_ok h
  dsimp only at h
  split at h
  · obtain ⟨_, _, h⟩ := bind_ok h
    obtain ⟨_, _, h⟩ := bind_ok h
    cases h
    exact flags_callIns (T := T) _ e v
  · split at h
    · obtain ⟨_, _, h⟩ := bind_ok h
      obtain ⟨_, _, h⟩ := bind_ok h
      obtain ⟨_, _, h⟩ := bind_ok h
      obtain ⟨_, _, h⟩ := bind_ok h
      obtain ⟨_, _, h⟩ := bind_ok h
      obtain ⟨_, _, h⟩ := bind_ok h
      cases h
      exact flags_callIns (T := T) _ e v
    · split at h
      · obtain ⟨_, _, h⟩ := bind_ok h
        obtain ⟨_, _, h⟩ := bind_ok h
        obtain ⟨_, _, h⟩ := bind_ok h
        obtain ⟨_, _, h⟩ := bind_ok h
        obtain ⟨_, _, h⟩ := bind_ok h
        cases h
        exact flags_callIns (T := T) _ e v
      · cases h
        rfl

theorem actualRemove_flags {s s' : SparseSet T} {e : EId} {r : Option T}
    (h : s.actualRemove e = .ok (r, s')) : s'.flags = s.flags := by
  unfold actualRemove at h
  obtain ⟨x, _, h⟩ := bind_ok h
  cases x with
  | none => cases h; rfl
  | some x =>
    dsimp only at h
    split at h
    · obtain ⟨_, _, h⟩ := bind_ok h
      obtain ⟨⟨_, _⟩, _, h⟩ := bind_ok h
      obtain ⟨_, _, h⟩ := bind_ok h
      obtain ⟨_, _, h⟩ := bind_ok h
      obtain ⟨⟨_, _⟩, _, h⟩ := bind_ok h
      obtain ⟨_, _, h⟩ := bind_ok h
      dsimp only at h
      split at h
      · cases h; exact flags_callRem (T := T) _ _ _
      · cases h; rfl
    · cases h; rfl

theorem dynDelete_flags {s s' : SparseSet T} {e : EId} {now : Nat} {b : Bool}
    (h : s.dynDelete e now = .ok (b, s')) : s'.flags = s.flags := by
  unfold dynDelete at h
  obtain ⟨⟨c, s1⟩, h1, h⟩ := bind_ok h
  have := actualRemove_flags h1
  cases c with
  | none => cases h; exact this
  | some c =>
    dsimp only at h
    cases h
    rw [← this]
    split <;> rfl

theorem dynRemove_flags {s s' : SparseSet T} {e : EId} {now : Nat} {r : Option T}
    (h : s.dynRemove e now = .ok (r, s')) : s'.flags = s.flags := by
  unfold dynRemove at h
  obtain ⟨⟨c, s1⟩, h1, h⟩ := bind_ok h
  have := actualRemove_flags h1
  dsimp only at h
  cases h
  rw [← this]
  split <;> rfl

theorem clear_flags {s s' : SparseSet T} {now : Nat} (h : s.clear now = .ok s') : s'.flags = s.flags := by
  unfold SparseSet.clear at h
  obtain ⟨_, _, h⟩ := bind_ok h
  cases h
  rfl

theorem drain_flags {s s' : SparseSet T} {now : Nat} {d : Drain T} (h : s.drain now = .ok (d, s')) : s'.flags = s.flags := by
  unfold drain at h
  obtain ⟨_, _, h⟩ := bind_ok h
  cases h
  rfl

theorem sortLoop_flags {perm : List Nat} (n : Nat) : ∀ {s s' : SparseSet T} {i : Nat}, sortLoop perm s i n = .ok s' →
    s'.flags = s.flags := by
  induction n with
  | zero => intro s s' i h; cases h; rfl
  | succ n ih =>
    intro s s' i h
    unfold sortLoop at h
    obtain ⟨_, _, h⟩ := bind_ok h
    obtain ⟨_, _, h⟩ := bind_ok h
    obtain ⟨_, _, h⟩ := bind_ok h
    obtain ⟨_, _, h⟩ := bind_ok h
    obtain ⟨_, _, h⟩ := bind_ok h
    obtain ⟨_, _, h⟩ := bind_ok h
    have := ih h
    exact this

theorem sortWith_flags {perm : List Nat} {s s' : SparseSet T} (h : s.sortWith perm = .ok s') : s'.flags = s.flags := by
  unfold sortWith at h
  obtain ⟨s1, h1, h⟩ := bind_ok h
  obtain ⟨_, _, h⟩ := bind_ok h
  cases h
  have := sortLoop_flags _ h1
  exact this

theorem apply_flags {R : Type} {s s' : SparseSet T} {a b : EId} {f : T → T → T × R} {now : Nat} {r : R}
    (h : s.apply a b f now = .ok (r, s')) : s'.flags = s.flags := by
  unfold SparseSet.apply at h
  obtain ⟨x, _, h⟩ := bind_ok h
  cases x with
  | none => cases h
  | some i =>
    obtain ⟨y, _, h⟩ := bind_ok h
    cases y with
    | none => cases h
    | some j =>
      dsimp only at h
      split at h
      · obtain ⟨_, _, h⟩ := bind_ok h
        obtain ⟨_, _, h⟩ := bind_ok h
        obtain ⟨_, _, h⟩ := bind_ok h
        obtain ⟨_, _, h⟩ := bind_ok h
        cases h
        rfl
      · cases h

theorem applyMut_flags {R : Type} {s s' : SparseSet T} {a b : EId} {f : T → T → T × T × R} {now : Nat} {r : R}
    (h : s.applyMut a b f now = .ok (r, s')) : s'.flags = s.flags := by
  unfold SparseSet.applyMut at h
  obtain ⟨x, _, h⟩ := bind_ok h
  cases x with
  | none => cases h
  | some i =>
    obtain ⟨y, _, h⟩ := bind_ok h
    cases y with
    | none => cases h
    | some j =>
      dsimp only at h
      split at h
      · obtain ⟨_, _, h⟩ := bind_ok h
        obtain ⟨_, _, h⟩ := bind_ok h
        obtain ⟨_, _, h⟩ := bind_ok h
        obtain ⟨_, _, h⟩ := bind_ok h
        obtain ⟨_, _, h⟩ := bind_ok h
        obtain ⟨_, _, h⟩ := bind_ok h
        cases h
        rfl
      · cases h

theorem modify_flags {s s' : SparseSet T} {e : EId} {now : Nat} {g : T → T} {b : Bool}
    (h : s.modify e now g = .ok (b, s')) : s'.flags = s.flags := by
  unfold modify at h
  obtain ⟨x, _, h⟩ := bind_ok h
  cases x with
  | none => cases h; rfl
  | some i =>
    obtain ⟨_, _, h⟩ := bind_ok h
    obtain ⟨_, _, h⟩ := bind_ok h
    obtain ⟨_, _, h⟩ := bind_ok h
    cases h
    rfl

theorem retainLoop_flags {σ : Type} {f : σ → EId → T → Bool × σ} {now : Nat} (n : Nat) :
    ∀ {s s' : SparseSet T} {st st' : σ} {pos : Nat}, retainLoop f now s st pos n = .ok (st', s') → s'.flags = s.flags := by
  induction n with
  | zero => intro s s' st st' pos h; cases h; rfl
  | succ n ih =>
    intro s s' st st' pos h
    unfold retainLoop at h
    obtain ⟨_, _, h⟩ := bind_ok h
    obtain ⟨_, _, h⟩ := bind_ok h
    dsimp only at h
    split at h
    · exact ih h
    · obtain ⟨⟨b, s1⟩, h1, h⟩ := bind_ok h
      exact (ih h).trans (dynDelete_flags h1)

theorem writeOpt_flags {s s' : SparseSet T} {i now : Nat} {v : Option T} (h : writeOpt s i now v = .ok s') :
    s'.flags = s.flags := by
  cases v with
  | none => cases h; rfl
  | some v =>
    unfold writeOpt writeRow at h
    obtain ⟨_, _, h⟩ := bind_ok h
    obtain ⟨_, _, h⟩ := bind_ok h
    cases h
    rfl

theorem retainMutLoop_flags {σ : Type} {f : σ → EId → T → Option T × Bool × σ} {now : Nat} (n : Nat) :
    ∀ {s s' : SparseSet T} {st st' : σ} {pos : Nat}, retainMutLoop f now s st pos n = .ok (st', s') → s'.flags = s.flags := by
  induction n with
  | zero => intro s s' st st' pos h; cases h; rfl
  | succ n ih =>
    intro s s' st st' pos h
    unfold retainMutLoop at h
    obtain ⟨_, _, h⟩ := bind_ok h
    obtain ⟨_, _, h⟩ := bind_ok h
    dsimp only at h
    obtain ⟨s0, h0, h⟩ := bind_ok h
    split at h
    · exact (ih h).trans (writeOpt_flags h0)
    · obtain ⟨⟨b, s1⟩, h1, h⟩ := bind_ok h
      exact (ih h).trans ((dynDelete_flags h1).trans (writeOpt_flags h0))

theorem bulkInsert_flags {s s' : SparseSet T} {ids : List EId} {vs : List T} {stamp : Nat}
    (h : s.bulkInsert ids vs stamp = .ok s') : s'.flags = s.flags := by
  unfold bulkInsert at h
  dsimp only at h
  split at h
  · obtain ⟨_, _, h⟩ := bind_ok h
    obtain ⟨_, _, h⟩ := bind_ok h
    cases h
    rfl
  · cases h

/-- `s'` tracks all that `s` tracks. -/
def Tracks (s s' : SparseSet T) : Prop :=
  (s.trkIns = true → s'.trkIns = true) ∧ (s.trkMod = true → s'.trkMod = true) ∧
  (s.trkDel = true → s'.trkDel = true) ∧ (s.trkRem = true → s'.trkRem = true)

theorem Tracks.refl (s : SparseSet T) : Tracks s s := ⟨id, id, id, id⟩

theorem Tracks.trans {s1 s2 s3 : SparseSet T} (h1 : Tracks s1 s2) (h2 : Tracks s2 s3) : Tracks s1 s3 :=
  ⟨h2.1 ∘ h1.1, h2.2.1 ∘ h1.2.1, h2.2.2.1 ∘ h1.2.2.1, h2.2.2.2 ∘ h1.2.2.2⟩

theorem Tracks.of_eq {s s' : SparseSet T} (h : s'.flags = s.flags) : Tracks s s' := by
  unfold flags at h
  simp only [Prod.mk.injEq] at h
  obtain ⟨h1, h2, h3, h4⟩ := h
  exact ⟨fun h => h1.trans h, fun h => h2.trans h, fun h => h3.trans h, fun h => h4.trans h⟩

theorem tracks_trackInsertion (s : SparseSet T) : Tracks s s.trackInsertion := by
  unfold trackInsertion
  split
  · exact .refl s
  · exact ⟨fun _ => rfl, id, id, id⟩

theorem tracks_trackModification (s : SparseSet T) : Tracks s s.trackModification := by
  unfold trackModification
  split
  · exact .refl s
  · exact ⟨id, fun _ => rfl, id, id⟩

theorem tracks_trackDeletion (s : SparseSet T) : Tracks s s.trackDeletion := ⟨id, id, fun _ => rfl, id⟩

theorem tracks_trackRemoval (s : SparseSet T) : Tracks s s.trackRemoval := ⟨id, id, id, fun _ => rfl⟩

theorem step_tracks {s s' : SparseSet T} {ev : StoSpec.Event T} (h : StoSpec.Step s ev s') : Tracks s s' := by
  cases h with
  | insert _ h => exact .of_eq (insert_flags h)
  | remove _ h => exact .of_eq (dynRemove_flags h)
  | delete _ _ h => exact .of_eq (dynDelete_flags h)
  | write _ h => exact .of_eq (modify_flags h)
  | apply _ _ h => exact .of_eq (apply_flags h)
  | applyMut _ _ h => exact .of_eq (applyMut_flags h)
  | sort _ h => exact .of_eq (sortWith_flags h)
  | retain h => exact .of_eq (retainLoop_flags _ h)
  | retainMut h => exact .of_eq (retainMutLoop_flags _ h)
  | clear h => exact .of_eq (clear_flags h)
  | drain h => exact .of_eq (drain_flags h)
  | bulk _ _ h => exact .of_eq (bulkInsert_flags h)
  | trackInsertion => exact tracks_trackInsertion s
  | trackModification => exact tracks_trackModification s
  | trackDeletion => exact tracks_trackDeletion s
  | trackRemoval => exact tracks_trackRemoval s
  | clearInserted => exact .refl _
  | clearModified => exact .refl _
  | clearDeleted => exact .refl _
  | clearRemoved => exact .refl _
  | clearBoth => exact .refl _
  | clearOlder => exact .refl _
  | clearDeletedOlder => exact .refl _
  | clearRemovedOlder => exact .refl _
  | onInsertion => exact .refl _
  | onRemoval => exact .refl _
  | reserve h1 h2 _ hr =>
    unfold bulkReserve at hr
    rw [h1, h2] at hr
    simp only [bind, Except.bind] at hr
    split at hr
    · cases hr
    · cases hr; exact .refl _

end Verif.SparseSet

namespace Verif.Reg
open Sched Track Tracking
open SparseSet (Tracks bind_ok)
variable {V : Type} {fl : Flags}

/-- What the storages of `w'` track contains what those of `w` track. -/
def Keeps (fl : Flags) (w w' : World V) : Prop := ∀ k, Tracks (w.stoOr fl k) (w'.stoOr fl k)

theorem Keeps.refl (w : World V) : Keeps fl w w := fun _ => .refl _

theorem Keeps.trans {w1 w2 w3 : World V} (h1 : Keeps fl w1 w2) (h2 : Keeps fl w2 w3) : Keeps fl w1 w3 :=
  fun k => (h1 k).trans (h2 k)

theorem stoOr_put (w : World V) (k : Nat) (s : SparseSet V) (j : Nat) :
    (w.put k s).stoOr fl j = if j = k then s else w.stoOr fl j := by
  unfold World.stoOr World.put
  rw [World.lookupK_setK]
  split <;> rfl

theorem Keeps.put {w : World V} {k : Nat} {s : SparseSet V} (h : Tracks (w.stoOr fl k) s) : Keeps fl w (w.put k s) := by
  intro j
  rw [stoOr_put]
  split
  · rename_i hj; subst hj; exact h
  · exact .refl _

theorem Keeps.of_stos {w w' : World V} (h : w'.stos = w.stos) : Keeps fl w w' := by
  intro k
  unfold World.stoOr
  rw [h]
  exact .refl _

theorem stoOr_of_lookup {w : World V} {k : Nat} {s : SparseSet V} (h : lookupK w.stos k = some s) : w.stoOr fl k = s := by
  unfold World.stoOr
  rw [h]
  rfl

theorem mapStos_tracks {f : Nat → SparseSet V → Res (SparseSet V)} (hf : ∀ k s s', f k s = .ok s' → Tracks s s')
    (l : List (Nat × SparseSet V)) : ∀ (l' : List (Nat × SparseSet V)), World.mapStos f l = .ok l' → ∀ (k : Nat) (n : SparseSet V),
    Tracks ((lookupK l k).getD n) ((lookupK l' k).getD n) := by
  induction l with
  | nil => intro l' h k n; cases h; exact .refl _
  | cons x l ih =>
    intro l' h k n
    obtain ⟨j, s⟩ := x
    unfold World.mapStos at h
    obtain ⟨s1, h1, h⟩ := bind_ok h
    obtain ⟨l1, h2, h⟩ := bind_ok h
    cases h
    simp only [lookupK]
    split
    · exact hf _ _ _ h1
    · exact ih _ h2 k n

theorem Keeps.mapStos {w w' : World V} {f : Nat → SparseSet V → Res (SparseSet V)} (hf : ∀ k s s', f k s = .ok s' → Tracks s s')
    (h : World.mapStos f w.stos = .ok w'.stos) : Keeps fl w w' :=
  fun k => mapStos_tracks hf _ _ h k _

theorem Keeps.map {w : World V} {f : SparseSet V → SparseSet V} (hf : ∀ s, Tracks s (f s)) :
    Keeps fl w { w with stos := w.stos.map fun x => (x.1, f x.2) } := by
  intro k
  unfold World.stoOr
  dsimp only
  generalize World.newSto fl k = n
  induction w.stos with
  | nil => exact .refl _
  | cons x l ih =>
    obtain ⟨j, s⟩ := x
    simp only [List.map_cons, lookupK]
    split
    · exact hf s
    · exact ih

theorem stoDelete_tracks {e : EId} {now : Nat} {s s' : SparseSet V} (h : World.stoDelete e now s = .ok s') : Tracks s s' := by
  unfold World.stoDelete at h
  obtain ⟨⟨b, s1⟩, h1, h⟩ := bind_ok h
  cases h
  exact .of_eq (SparseSet.dynDelete_flags h1)

theorem stoDeleteAll_tracks {now : Nat} (es : List EId) : ∀ {s s' : SparseSet V}, World.stoDeleteAll now es s = .ok s' →
    Tracks s s' := by
  induction es with
  | nil => intro s s' h; cases h; exact .refl _
  | cons e es ih =>
    intro s s' h
    unfold World.stoDeleteAll at h
    obtain ⟨s1, h1, h⟩ := bind_ok h
    exact (stoDelete_tracks h1).trans (ih h)

theorem addAll_keeps {e : EId} {now : Nat} (cs : List (Nat × Option V)) : ∀ {w w' : World V} {r : Ended},
    World.addAll fl e now cs w = .ok (r, w') → Keeps fl w w' := by
  induction cs with
  | nil => intro w w' r h; cases h; exact .refl _
  | cons c cs ih =>
    intro w w' r h
    obtain ⟨k, v⟩ := c
    cases v with
    | none => exact ih h
    | some v =>
      unfold World.addAll at h
      obtain ⟨⟨r1, s1⟩, h1, h⟩ := bind_ok h
      have hk : Keeps fl w (w.put k s1) := .put (.of_eq (SparseSet.insert_flags h1))
      dsimp only at h
      split at h
      · exact hk.trans (ih h)
      · cases h; exact hk

theorem bulkCols_keeps {ids : List EId} {stamp : Nat} (cols : List (Nat × List V)) : ∀ {w w' : World V},
    World.bulkCols fl ids stamp cols w = .ok w' → Keeps fl w w' := by
  induction cols with
  | nil => intro w w' h; cases h; exact .refl _
  | cons c cs ih =>
    intro w w' h
    obtain ⟨k, v⟩ := c
    unfold World.bulkCols at h
    obtain ⟨s1, h1, h⟩ := bind_ok h
    exact (Keeps.put (.of_eq (SparseSet.bulkInsert_flags h1))).trans (ih h)

theorem strip_keeps {w w' : World V} {e : EId} (h : w.strip e = .ok w') : Keeps fl w w' := by
  unfold World.strip at h
  obtain ⟨l, h1, h⟩ := bind_ok h
  cases h
  exact .mapStos (fun _ _ _ => stoDelete_tracks) h1

theorem deleteEntity_keeps {w w' : World V} {e : EId} {b : Bool} (h : w.deleteEntity e = .ok (b, w')) : Keeps fl w w' := by
  unfold World.deleteEntity at h
  obtain ⟨⟨b1, ents⟩, _, h⟩ := bind_ok h
  dsimp only at h
  split at h
  · obtain ⟨w1, h1, h⟩ := bind_ok h
    cases h
    exact Keeps.trans (w2 := { w with ents := ents }) (.of_stos rfl) (strip_keeps h1)
  · cases h; exact .of_stos rfl

theorem deleteEntities_keeps (es : List EId) : ∀ {w w' : World V}, World.deleteEntities es w = .ok w' → Keeps fl w w' := by
  induction es with
  | nil => intro w w' h; cases h; exact .refl _
  | cons e es ih =>
    intro w w' h
    unfold World.deleteEntities at h
    obtain ⟨⟨b, w1⟩, h1, h⟩ := bind_ok h
    exact (deleteEntity_keeps h1).trans (ih h)

theorem deleteAnyCollect_keeps {now : Nat} (ks : List Nat) : ∀ {w w' : World V} {ids : List EId},
    World.deleteAnyCollect now ks w = .ok (ids, w') → Keeps fl w w' := by
  induction ks with
  | nil => intro w w' ids h; cases h; exact .refl _
  | cons k ks ih =>
    intro w w' ids h
    unfold World.deleteAnyCollect at h
    cases hl : lookupK w.stos k with
    | none => rw [hl] at h; exact ih h
    | some s =>
      rw [hl] at h
      obtain ⟨s1, h1, h⟩ := bind_ok h
      obtain ⟨⟨ids1, w1⟩, h2, h⟩ := bind_ok h
      cases h
      refine (Keeps.put ?_).trans (ih h2)
      rw [stoOr_of_lookup hl]
      exact .of_eq (SparseSet.clear_flags h1)

theorem removeAll_keeps {e : EId} {now : Nat} (ks : List Nat) : ∀ {w w' : World V} {rs : List (Option V)},
    World.removeAll fl e now ks w = .ok (rs, w') → Keeps fl w w' := by
  induction ks with
  | nil => intro w w' rs h; cases h; exact .refl _
  | cons k ks ih =>
    intro w w' rs h
    unfold World.removeAll at h
    obtain ⟨⟨r, s1⟩, h1, h⟩ := bind_ok h
    obtain ⟨⟨rs1, w1⟩, h2, h⟩ := bind_ok h
    cases h
    exact (Keeps.put (.of_eq (SparseSet.dynRemove_flags h1))).trans (ih h2)

theorem deleteFirst_keeps {e : EId} {now : Nat} (ks : List Nat) : ∀ {w w' : World V} {b : Bool},
    World.deleteFirst fl e now ks w = .ok (b, w') → Keeps fl w w' := by
  induction ks with
  | nil => intro w w' b h; cases h; exact .refl _
  | cons k ks ih =>
    intro w w' b h
    unfold World.deleteFirst at h
    obtain ⟨⟨b1, s1⟩, h1, h⟩ := bind_ok h
    have hk : Keeps fl w (w.put k s1) := .put (.of_eq (SparseSet.dynDelete_flags h1))
    dsimp only at h
    split at h
    · cases h; exact hk
    · exact hk.trans (ih h)

theorem putOpt_keeps {o o' : World V} {k : Nat} {dst : EId} {now : Nat} {v : Option V}
    (h : World.putOpt fl o k dst now v = .ok o') : Keeps fl o o' := by
  cases v with
  | none => cases h; exact .refl _
  | some v =>
    unfold World.putOpt at h
    obtain ⟨⟨r, t⟩, h1, h⟩ := bind_ok h
    cases h
    exact .put (.of_eq (SparseSet.insert_flags h1))

theorem moveLoop_keeps {src dst : EId} {now nowO : Nat} (l : List (Nat × SparseSet V)) : ∀ {l' : List (Nat × SparseSet V)}
    {o o' : World V}, World.moveLoop fl src dst now nowO l o = .ok (l', o') →
    (∀ (k : Nat) (n : SparseSet V), Tracks ((lookupK l k).getD n) ((lookupK l' k).getD n)) ∧ Keeps fl o o' := by
  induction l with
  | nil => intro l' o o' h; cases h; exact ⟨fun _ _ => .refl _, .refl _⟩
  | cons x l ih =>
    intro l' o o' h
    obtain ⟨j, s⟩ := x
    unfold World.moveLoop at h
    obtain ⟨⟨c, s1⟩, h1, h⟩ := bind_ok h
    obtain ⟨o1, h2, h⟩ := bind_ok h
    obtain ⟨⟨l1, o2⟩, h3, h⟩ := bind_ok h
    cases h
    obtain ⟨ha, hb⟩ := ih h3
    refine ⟨fun k n => ?_, (putOpt_keeps h2).trans hb⟩
    simp only [lookupK]
    split
    · exact .of_eq (SparseSet.dynRemove_flags h1)
    · exact ha k n

theorem moveEntity_keeps {w o w' o' : World V} {e : EId} {r : Ended} (h : w.moveEntity fl o e = .ok (r, w', o')) :
    Keeps fl w w' ∧ Keeps fl o o' := by
  unfold World.moveEntity at h
  obtain ⟨⟨b, ents⟩, _, h⟩ := bind_ok h
  dsimp only at h
  split at h
  · obtain ⟨⟨b', entsO⟩, _, h⟩ := bind_ok h
    dsimp only at h
    split at h
    · obtain ⟨⟨l, o1⟩, h1, h⟩ := bind_ok h
      cases h
      obtain ⟨ha, hb⟩ := moveLoop_keeps _ h1
      exact ⟨fun k => ha k _, fun k => hb k⟩
    · cases h; exact ⟨.of_stos rfl, .of_stos rfl⟩
  · cases h; exact ⟨.of_stos rfl, .of_stos rfl⟩

theorem moveComponents_keeps {w o w' o' : World V} {src dst : EId} {r : Ended}
    (h : w.moveComponents fl o src dst = .ok (r, w', o')) : Keeps fl w w' ∧ Keeps fl o o' := by
  unfold World.moveComponents at h
  split at h
  · split at h
    · obtain ⟨⟨l, o1⟩, h1, h⟩ := bind_ok h
      cases h
      obtain ⟨ha, hb⟩ := moveLoop_keeps _ h1
      exact ⟨fun k => ha k _, fun k => hb k⟩
    · cases h; exact ⟨.of_stos rfl, .of_stos rfl⟩
  · cases h; exact ⟨.of_stos rfl, .of_stos rfl⟩

theorem cloneCompLoop_keeps {cl : Nat → V → V} {src dst : EId} {nowO : Nat} (l : List (Nat × SparseSet V)) :
    ∀ {o o' : World V}, World.cloneCompLoop fl cl src dst nowO l o = .ok o' → Keeps fl o o' := by
  induction l with
  | nil => intro o o' h; cases h; exact .refl _
  | cons x l ih =>
    intro o o' h
    obtain ⟨j, s⟩ := x
    unfold World.cloneCompLoop at h
    obtain ⟨c, _, h⟩ := bind_ok h
    obtain ⟨o1, h2, h⟩ := bind_ok h
    exact (putOpt_keeps h2).trans (ih h)

/-! ## Enabling -/

theorem tracks_if (b : Bool) {f : SparseSet V → SparseSet V} (hf : ∀ s, Tracks s (f s)) (s : SparseSet V) :
    Tracks s (if b then f s else s) := by
  split
  · exact hf s
  · exact .refl _

theorem enableTracking_tracks (kind : Kind) (s : SparseSet V) : Tracks s (enableTracking kind s) :=
  (tracks_if _ SparseSet.tracks_trackInsertion s).trans ((tracks_if _ SparseSet.tracks_trackModification _).trans
    ((tracks_if _ SparseSet.tracks_trackDeletion _).trans (tracks_if _ SparseSet.tracks_trackRemoval _)))

/-- One round of the loop. -/
theorem enableAll_cons (held : Nat → Bool) (k : Nat) (kind : Kind) (l : List (Nat × Kind)) (w : World V) :
    (enableAll fl held ((k, kind) :: l) w = (w, .error k) ∧ (lookupK w.stos k).isSome = true ∧ held k = true) ∨
    (enableAll fl held ((k, kind) :: l) w = enableAll fl held l (w.put k (enableTracking kind (w.stoOr fl k))) ∧
      ((lookupK w.stos k).isSome = true → held k = false)) := by
  unfold World.stoOr
  rw [enableAll]
  cases hl : lookupK w.stos k with
  | none => exact .inr ⟨rfl, fun h => by cases h⟩
  | some s =>
    dsimp only
    cases hh : held k with
    | true => exact .inl ⟨rfl, rfl, rfl⟩
    | false => exact .inr ⟨rfl, fun _ => rfl⟩

theorem enableAll_keeps (held : Nat → Bool) (l : List (Nat × Kind)) : ∀ (w : World V), Keeps fl w (enableAll fl held l w).1 := by
  induction l with
  | nil => intro w; exact .refl _
  | cons x l ih =>
    intro w
    obtain ⟨k, kind⟩ := x
    rcases enableAll_cons (fl := fl) held k kind l w with ⟨h, _⟩ | ⟨h, _⟩
    · rw [h]; exact .refl _
    · rw [h]; exact (Keeps.put (enableTracking_tracks kind _)).trans (ih _)

theorem call_keeps {w w' : World V} (h : Call fl w w') : Keeps fl w w' := by
  cases h with
  | addEntity h =>
    unfold World.addEntity at h
    obtain ⟨⟨e, ents⟩, _, h⟩ := bind_ok h
    obtain ⟨⟨r, w1⟩, h1, h⟩ := bind_ok h
    cases h
    exact fun k => addAll_keeps _ h1 k
  | bulkAddEntity h =>
    unfold World.bulkAddEntity at h
    obtain ⟨⟨e, ents⟩, _, h⟩ := bind_ok h
    obtain ⟨w1, h1, h⟩ := bind_ok h
    cases h
    exact fun k => bulkCols_keeps _ h1 k
  | addComponent h =>
    unfold World.addComponent at h
    split at h
    · exact fun k => addAll_keeps _ h k
    · cases h; exact .of_stos rfl
  | deleteEntity h => exact deleteEntity_keeps h
  | strip h => exact strip_keeps h
  | bulkStrip h =>
    unfold World.bulkStrip at h
    obtain ⟨l, h1, h⟩ := bind_ok h
    cases h
    exact .mapStos (fun _ _ _ => stoDeleteAll_tracks _) h1
  | retainStorage h =>
    unfold World.retainStorage at h
    split at h
    · cases h; exact .refl _
    · unfold World.retainStorageById at h
      obtain ⟨l, h1, h⟩ := bind_ok h
      cases h
      refine .mapStos (fun k s s' hs => ?_) h1
      split at hs
      · cases hs; exact .refl _
      · exact stoDelete_tracks hs
  | @retain σ w k w' st st' f h =>
    unfold World.retain at h
    cases hl : lookupK w.stos k with
    | none => rw [hl] at h; cases h
    | some s =>
      rw [hl] at h
      obtain ⟨⟨st1, s1⟩, h1, h⟩ := bind_ok h
      cases h
      refine Keeps.trans (w2 := w.tick) (.of_stos rfl) (.put ?_)
      rw [stoOr_of_lookup (w := w.tick) hl]
      exact .of_eq (SparseSet.retainLoop_flags _ h1)
  | remove h => exact fun k => removeAll_keeps _ h k
  | deleteComponent h => exact fun k => deleteFirst_keeps _ h k
  | deleteAny h =>
    unfold World.deleteAny at h
    obtain ⟨⟨ids, w1⟩, h1, h⟩ := bind_ok h
    exact Keeps.trans (fun k => deleteAnyCollect_keeps _ h1 k) (deleteEntities_keeps _ h)
  | clear h =>
    unfold World.clear at h
    obtain ⟨ents, _, h⟩ := bind_ok h
    obtain ⟨l, h1, h⟩ := bind_ok h
    cases h
    exact .mapStos (fun _ _ _ hs => .of_eq (SparseSet.clear_flags hs)) h1
  | spawn h =>
    unfold World.spawn at h
    obtain ⟨⟨b, ents⟩, _, h⟩ := bind_ok h
    cases h
    exact .of_stos rfl
  | create k => exact .put (.refl _)
  | registerClone k => exact .put ⟨id, id, id, id⟩
  | view hl hs =>
    refine .put ?_
    rw [stoOr_of_lookup hl]
    exact SparseSet.step_tracks hs
  | @clearAllRemovedAndDeleted w =>
    exact Keeps.map (w := w) (f := fun s => s.storageClearAllRemovedAndDeleted) fun s => ⟨id, id, id, id⟩
  | @clearAllRemovedAndDeletedOlderThan w t =>
    exact Keeps.map (w := w) (f := fun s => s.clearAllRemovedAndDeletedOlderThan t) fun s => ⟨id, id, id, id⟩
  | @clearAllInserted w => exact Keeps.map (w := w) (f := fun s => s.clearAllInserted w.counter) fun s => ⟨id, id, id, id⟩
  | @clearAllModified w => exact Keeps.map (w := w) (f := fun s => s.clearAllModified w.counter) fun s => ⟨id, id, id, id⟩
  | @clearAllInsertedAndModified w =>
    exact Keeps.map (w := w) (f := fun s => (s.clearAllInserted w.counter).clearAllModified w.counter) fun s => ⟨id, id, id, id⟩
  | entities ents => exact .of_stos rfl
  | clock c => exact .of_stos rfl
  | rehash l hl =>
    intro k
    unfold World.stoOr
    dsimp only
    rw [hl]
    exact .refl _
  | moveOut h => exact (moveEntity_keeps h).1
  | moveIn h => exact (moveEntity_keeps h).2
  | moveComponentsOut h => exact (moveComponents_keeps h).1
  | moveComponentsIn h => exact (moveComponents_keeps h).2
  | cloneEntityIn cl h =>
    unfold World.cloneEntityTo at h
    split at h
    · obtain ⟨⟨b, ents⟩, _, h⟩ := bind_ok h
      dsimp only at h
      split at h
      · obtain ⟨o1, h1, h⟩ := bind_ok h
        cases h
        exact fun k => cloneCompLoop_keeps _ h1 k
      · cases h; exact .of_stos rfl
    · cases h; exact .of_stos rfl
  | cloneComponentsIn cl h =>
    unfold World.cloneComponentsTo at h
    split at h
    · split at h
      · obtain ⟨o1, h1, h⟩ := bind_ok h
        cases h
        exact fun k => cloneCompLoop_keeps _ h1 k
      · cases h; exact .of_stos rfl
    · cases h; exact .of_stos rfl
  | enable => exact enableAll_keeps _ _ _

theorem later_keeps {w w' : World V} (h : Later fl w w') : Keeps fl w w' := by
  induction h with
  | refl => exact .refl _
  | call _ hc ih => exact ih.trans (call_keeps hc)


/-! ## What enabling does -/

theorem grants_iff {w : World V} {k : Nat} {kind : Kind} : Grants fl w k kind ↔ checkTracking kind (w.stoOr fl k) = true := by
  unfold Grants borrowView
  cases checkTracking kind (w.stoOr fl k) with
  | true => exact ⟨fun _ => rfl, fun _ _ _ => rfl⟩
  | false => exact ⟨(fun h => absurd (h none 0) (by simp)), (fun h => by cases h)⟩

theorem checkTracking_mono {kind : Kind} {s s' : SparseSet V} (h : Tracks s s') (hc : checkTracking kind s = true) :
    checkTracking kind s' = true := by
  obtain ⟨h1, h2, h3, h4⟩ := h
  unfold checkTracking at *
  revert h1 h2 h3 h4 hc
  generalize kind.trackInsertion = a, kind.trackModification = b, kind.trackDeletion = c, kind.trackRemoval = d
  generalize s.trkIns = x1, s.trkMod = x2, s.trkDel = x3, s.trkRem = x4
  generalize s'.trkIns = y1, s'.trkMod = y2, s'.trkDel = y3, s'.trkRem = y4
  cases a <;> cases b <;> cases c <;> cases d <;> cases x1 <;> cases x2 <;> cases x3 <;> cases x4 <;> simp_all

theorem Keeps.grants {w w' : World V} (h : Keeps fl w w') {k : Nat} {kind : Kind} (hg : Grants fl w k kind) :
    Grants fl w' k kind := grants_iff.mpr (checkTracking_mono (h k) (grants_iff.mp hg))

theorem enableTracking_grants (kind : Kind) (s : SparseSet V) : checkTracking kind (enableTracking kind s) = true := by
  have := (TrkSpec.C66_enable kind s).2.2.2.2.2.2 none 0
  unfold borrowView at this
  split at this
  · assumption
  · cases this

theorem enableAll_ok (held : Nat → Bool) (l : List (Nat × Kind)) : ∀ (w w' : World V), enableAll fl held l w = (w', .ok ()) →
    ∀ p ∈ l, Grants fl w' p.1 p.2 ∧ (lookupK w'.stos p.1).isSome = true := by
  induction l with
  | nil => intro w w' _ p hp; cases hp
  | cons x l ih =>
    intro w w' h p hp
    obtain ⟨k, kind⟩ := x
    rcases enableAll_cons (fl := fl) held k kind l w with ⟨h1, _⟩ | ⟨h1, _⟩
    · rw [h1] at h; cases h
    · rw [h1] at h
      rcases List.mem_cons.mp hp with rfl | hp
      · have hk := enableAll_keeps (fl := fl) held l (w.put k (enableTracking kind (w.stoOr fl k)))
        rw [h] at hk
        refine ⟨hk.grants (grants_iff.mpr ?_), ?_⟩
        · rw [stoOr_put, if_pos rfl]; exact enableTracking_grants kind _
        · exact enableAll_present held l _ k (by unfold World.put; rw [World.lookupK_setK, if_pos rfl]; rfl) _ _ h
      · exact ih _ _ h p hp
where
  enableAll_present (held : Nat → Bool) (l : List (Nat × Kind)) : ∀ (w : World V) (k : Nat), (lookupK w.stos k).isSome = true →
      ∀ w' r, enableAll fl held l w = (w', r) → (lookupK w'.stos k).isSome = true := by
    induction l with
    | nil => intro w k hk w' r h; cases h; exact hk
    | cons x l ih =>
      intro w k hk w' r h
      obtain ⟨j, kind⟩ := x
      rcases enableAll_cons (fl := fl) held j kind l w with ⟨h1, _⟩ | ⟨h1, _⟩
      · rw [h1] at h; cases h; exact hk
      · rw [h1] at h
        refine ih _ k ?_ _ _ h
        unfold World.put
        rw [World.lookupK_setK]
        split
        · rfl
        · exact hk

/-- When the loop fails: a storage that exists is borrowed. -/
theorem enableAll_error (held : Nat → Bool) (l : List (Nat × Kind)) : ∀ (w : World V) (k : Nat),
    (enableAll fl held l w).2 = .error k → held k = true ∧ ∃ kind, (k, kind) ∈ l := by
  induction l with
  | nil => intro w k h; cases h
  | cons x l ih =>
    intro w k h
    obtain ⟨j, kind⟩ := x
    rcases enableAll_cons (fl := fl) held j kind l w with ⟨h1, _, h3⟩ | ⟨h1, _⟩
    · rw [h1] at h; cases h; exact ⟨h3, kind, by simp⟩
    · rw [h1] at h
      obtain ⟨ha, kd, hb⟩ := ih _ _ h
      exact ⟨ha, kd, by simp [hb]⟩

theorem Same.refl (s : SparseSet V) : Same s s := ⟨rfl, rfl, rfl, rfl, rfl, rfl, rfl, ⟨rfl, rfl, rfl, rfl⟩, rfl, fun _ => rfl, fun _ => rfl⟩

theorem Same.trans {s1 s2 s3 : SparseSet V} (h1 : Same s1 s2) (ht : Tracks s1 s2) (h2 : Same s2 s3) : Same s1 s3 :=
  ⟨h2.sparse.trans h1.sparse, h2.dense.trans h1.dense, h2.data.trans h1.data, h2.deleted.trans h1.deleted,
    h2.removed.trans h1.removed, h2.lastIns.trans h1.lastIns, h2.lastMod.trans h1.lastMod,
    ⟨h2.hooks.1.trans h1.hooks.1, h2.hooks.2.1.trans h1.hooks.2.1, h2.hooks.2.2.1.trans h1.hooks.2.2.1,
      h2.hooks.2.2.2.trans h1.hooks.2.2.2⟩, h2.clone.trans h1.clone,
    fun h => (h2.ins (ht.1 h)).trans (h1.ins h), fun h => (h2.mod (ht.2.1 h)).trans (h1.mod h)⟩

theorem same_trackInsertion (s : SparseSet V) : Same s s.trackInsertion := by
  unfold SparseSet.trackInsertion
  split
  · exact .refl s
  · rename_i hn
    exact ⟨rfl, rfl, rfl, rfl, rfl, rfl, rfl, ⟨rfl, rfl, rfl, rfl⟩, rfl, fun h => absurd h hn, fun _ => rfl⟩

theorem same_trackModification (s : SparseSet V) : Same s s.trackModification := by
  unfold SparseSet.trackModification
  split
  · exact .refl s
  · rename_i hn
    exact ⟨rfl, rfl, rfl, rfl, rfl, rfl, rfl, ⟨rfl, rfl, rfl, rfl⟩, rfl, fun _ => rfl, fun h => absurd h hn⟩

theorem same_trackDeletion (s : SparseSet V) : Same s s.trackDeletion :=
  ⟨rfl, rfl, rfl, rfl, rfl, rfl, rfl, ⟨rfl, rfl, rfl, rfl⟩, rfl, fun _ => rfl, fun _ => rfl⟩

theorem same_trackRemoval (s : SparseSet V) : Same s s.trackRemoval :=
  ⟨rfl, rfl, rfl, rfl, rfl, rfl, rfl, ⟨rfl, rfl, rfl, rfl⟩, rfl, fun _ => rfl, fun _ => rfl⟩

theorem same_if (b : Bool) {f : SparseSet V → SparseSet V} (hf : ∀ s, Same s (f s)) (s : SparseSet V) :
    Same s (if b then f s else s) := by
  split
  · exact hf s
  · exact .refl _

theorem enableTracking_same (kind : Kind) (s : SparseSet V) : Same s (enableTracking kind s) :=
  (same_if _ same_trackInsertion s).trans (tracks_if _ SparseSet.tracks_trackInsertion s)
    ((same_if _ same_trackModification _).trans (tracks_if _ SparseSet.tracks_trackModification _)
      ((same_if _ same_trackDeletion _).trans (tracks_if _ SparseSet.tracks_trackDeletion _) (same_if _ same_trackRemoval _)))

/-- After the loop, whatever its result, the entities and the clock are the same, and every storage is the same up to
tracking; the storages made are those asked for. -/
theorem enableAll_same (held : Nat → Bool) (l : List (Nat × Kind)) : ∀ (w w' : World V) (r : Except Nat Unit),
    enableAll fl held l w = (w', r) →
    w'.ents = w.ents ∧ w'.counter = w.counter ∧ (∀ k, Same (w.stoOr fl k) (w'.stoOr fl k)) ∧
    (∀ k, (lookupK w'.stos k).isSome = true → (lookupK w.stos k).isSome = true ∨ ∃ kind, (k, kind) ∈ l) ∧
    (∀ k, (∀ kind, (k, kind) ∉ l) → lookupK w'.stos k = lookupK w.stos k) := by
  induction l with
  | nil => intro w w' r h; cases h; exact ⟨rfl, rfl, fun _ => .refl _, fun _ h => .inl h, fun _ _ => rfl⟩
  | cons x l ih =>
    intro w w' r h
    obtain ⟨j, kind⟩ := x
    rcases enableAll_cons (fl := fl) held j kind l w with ⟨h1, _⟩ | ⟨h1, _⟩
    · rw [h1] at h; cases h; exact ⟨rfl, rfl, fun _ => .refl _, fun _ h => .inl h, fun _ _ => rfl⟩
    · rw [h1] at h
      obtain ⟨a, b, c, d, e⟩ := ih _ _ _ h
      have hput : ∀ k, lookupK (w.put j (enableTracking kind (w.stoOr fl j))).stos k =
          if k = j then some (enableTracking kind (w.stoOr fl j)) else lookupK w.stos k := fun k => by
        unfold World.put; exact World.lookupK_setK _ _ _ _
      refine ⟨a, b, fun k => ?_, fun k hk => ?_, fun k hk => ?_⟩
      · have hc := c k
        rw [stoOr_put] at hc
        split at hc
        · rename_i hkj; subst hkj
          exact (enableTracking_same kind _).trans (enableTracking_tracks kind _) hc
        · exact hc
      · rcases d k hk with h2 | ⟨kd, h2⟩
        · rw [hput] at h2
          split at h2
          · rename_i hkj; subst hkj; exact .inr ⟨kind, by simp⟩
          · exact .inl h2
        · exact .inr ⟨kd, by simp [h2]⟩
      · rw [e k fun kd hm => hk kd (by simp [hm]), hput, if_neg]
        intro hkj
        subst hkj
        exact hk kind (by simp)

/-- What a storage tracks after the loop. -/
theorem enableAll_only (held : Nat → Bool) (l : List (Nat × Kind)) : ∀ (w w' : World V) (r : Except Nat Unit),
    enableAll fl held l w = (w', r) → ∀ k,
    ((w'.stoOr fl k).trkIns = true → (w.stoOr fl k).trkIns = true ∨ ∃ kind, (k, kind) ∈ l ∧ kind.trackInsertion = true) ∧
    ((w'.stoOr fl k).trkMod = true → (w.stoOr fl k).trkMod = true ∨ ∃ kind, (k, kind) ∈ l ∧ kind.trackModification = true) ∧
    ((w'.stoOr fl k).trkDel = true → (w.stoOr fl k).trkDel = true ∨ ∃ kind, (k, kind) ∈ l ∧ kind.trackDeletion = true) ∧
    ((w'.stoOr fl k).trkRem = true → (w.stoOr fl k).trkRem = true ∨ ∃ kind, (k, kind) ∈ l ∧ kind.trackRemoval = true) := by
  induction l with
  | nil => intro w w' r h k; cases h; exact ⟨.inl, .inl, .inl, .inl⟩
  | cons x l ih =>
    intro w w' r h k
    obtain ⟨j, kind⟩ := x
    rcases enableAll_cons (fl := fl) held j kind l w with ⟨h1, _⟩ | ⟨h1, _⟩
    · rw [h1] at h; cases h; exact ⟨.inl, .inl, .inl, .inl⟩
    · rw [h1] at h
      obtain ⟨a, b, c, d⟩ := ih _ _ _ h k
      have ht := (TrkSpec.C66_enable kind (w.stoOr fl j)).1
      have t1 : (enableTracking kind (w.stoOr fl j)).trkIns = _ := ht .insertion
      have t2 : (enableTracking kind (w.stoOr fl j)).trkMod = _ := ht .modification
      have t3 : (enableTracking kind (w.stoOr fl j)).trkDel = _ := ht .deletion
      have t4 : (enableTracking kind (w.stoOr fl j)).trkRem = _ := ht .removal
      rw [stoOr_put] at a b c d
      have lift : ∀ {x y : Bool} {p : Kind → Bool}, (x = true → y = true ∨ ∃ kd, (k, kd) ∈ l ∧ p kd = true) →
          x = true → y = true ∨ ∃ kd, (k, kd) ∈ (j, kind) :: l ∧ p kd = true := by
        intro x y p hx h
        rcases hx h with h | ⟨kd, h, hp⟩
        · exact .inl h
        · exact .inr ⟨kd, by simp [h], hp⟩
      by_cases hkj : k = j
      · subst hkj
        rw [if_pos rfl] at a b c d
        have up : ∀ {x y z : Bool} {p : Kind → Bool}, y = (z || p kind) →
            (x = true → y = true ∨ ∃ kd, (k, kd) ∈ l ∧ p kd = true) →
            x = true → z = true ∨ ∃ kd, (k, kd) ∈ (k, kind) :: l ∧ p kd = true := by
          intro x y z p hy hx h
          rcases hx h with h | ⟨kd, h, hp⟩
          · rw [hy, Bool.or_eq_true] at h
            rcases h with h | h
            · exact .inl h
            · exact .inr ⟨kind, by simp, h⟩
          · exact .inr ⟨kd, by simp [h], hp⟩
        exact ⟨up t1 a, up t2 b, up t3 c, up t4 d⟩
      · rw [if_neg hkj] at a b c d
        exact ⟨lift a, lift b, lift c, lift d⟩

/-! ## Worlds reached by the API stay so -/

open WSpec (Reach InsertsNothing)
open EntSpec (Event)

theorem put_put (w : World V) (k : Nat) (s s' : SparseSet V) : (w.put k s).put k s' = w.put k s' := by
  unfold World.put
  rw [Serde.setK_setK]

theorem reach_put_step {w : World V} {h : List Event} {k : Nat} {s s' : SparseSet V} {ev : StoSpec.Event V}
    (hr : Reach fl (w.put k s) h) (hs : StoSpec.Step s ev s') (hi : InsertsNothing ev) : Reach fl (w.put k s') h := by
  have := Reach.view (k := k) hr (by unfold World.put; rw [World.lookupK_setK, if_pos rfl]) hs hi
  rwa [put_put] at this

theorem reach_if {w : World V} {h : List Event} {k : Nat} {s : SparseSet V} {f : SparseSet V → SparseSet V} {b : Bool}
    {ev : StoSpec.Event V} (hr : Reach fl (w.put k s) h) (hs : StoSpec.Step s ev (f s)) (hi : InsertsNothing ev) :
    Reach fl (w.put k (if b then f s else s)) h := by
  cases b with
  | true => exact reach_put_step hr hs hi
  | false => exact hr

theorem enableAll_reach (held : Nat → Bool) (l : List (Nat × Kind)) {h : List Event} : ∀ (w : World V), Reach fl w h →
    Reach fl (enableAll fl held l w).1 h := by
  induction l with
  | nil => intro w hr; exact hr
  | cons x l ih =>
    intro w hr
    obtain ⟨k, kind⟩ := x
    rcases enableAll_cons (fl := fl) held k kind l w with ⟨h1, _⟩ | ⟨h1, _⟩
    · rw [h1]; exact hr
    · rw [h1]
      refine ih _ ?_
      have h0 : Reach fl (w.put k (w.stoOr fl k)) h := .create k hr
      unfold enableTracking
      exact reach_if (reach_if (reach_if (reach_if h0 .trackInsertion trivial) .trackModification trivial) .trackDeletion trivial)
        .trackRemoval trivial

/-! ## Borrowing the views of a system -/

theorem borrowAll_ok {ε : Type} (lastRun : Option Nat) (current : Nat) (ps : List Param) : ∀ (w : World V),
    (∀ p ∈ ps.filterMap Param.enable, Grants fl w p.1 p.2) →
    ∃ w' vs, borrowAll (ε := ε) fl lastRun current ps w = (w', .ok vs) ∧ Later fl w w' ∧
      vs.length = (ps.filterMap Param.enable).length := by
  induction ps with
  | nil => intro w _; exact ⟨w, [], rfl, .refl, rfl⟩
  | cons p ps ih =>
    intro w hg
    cases p with
    | other t => exact ih w hg
    | comp k x t kind =>
      have hk : Grants fl w k kind := hg (k, kind) (by simp [Param.enable])
      have hc : Call fl w (w.create fl k) := .create k
      obtain ⟨w', vs, h1, h2, h3⟩ := ih (w.create fl k) fun p hp => (call_keeps hc).grants (hg p (by
        rw [List.filterMap_cons]; simp only [Param.enable]; exact List.mem_cons_of_mem _ hp))
      have hb : borrowView kind (w.stoOr fl k) lastRun current = some (View.new (w.stoOr fl k) lastRun current) := by
        unfold borrowView
        rw [grants_iff.mp hk]; rfl
      refine ⟨w', View.new (w.stoOr fl k) lastRun current :: vs, ?_, ?_, ?_⟩
      · rw [borrowAll, hb]; dsimp only; rw [h1]
      · clear h1 h3
        have key : ∀ {a b : World V}, Later fl (w.create fl k) a → a = b → Later fl w b := by
          intro a b hl he
          subst he
          induction hl with
          | refl => exact .call .refl hc
          | call _ hc' ih' => exact .call ih' hc'
        exact key h2 rfl
      · rw [List.filterMap_cons]
        simp only [Param.enable, List.length_cons, h3]

theorem Later.trans {w1 w2 w3 : World V} (h1 : Later fl w1 w2) (h2 : Later fl w2 w3) : Later fl w1 w3 := by
  induction h2 with
  | refl => exact h1
  | call _ hc ih => exact .call ih hc

end Verif.Reg
