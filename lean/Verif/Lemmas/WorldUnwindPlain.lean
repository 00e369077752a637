import Verif.Lemmas.WorldUnwind

/-! When no user code panics the functions of `Verif/Model/WorldUnwind.lean` are those of
`Verif/Model/World.lean`. -/
namespace Verif
variable {V : Type} {fl : Flags}

/-- Nothing panics. -/
def calm : Panics := fun _ => (false, false)

namespace SparseSet

theorem dynDeleteU_plain {s : SparseSet V} {e : EId} {now : Nat} {b s'} (h : s.dynDelete e now = .ok (b, s')) :
    s.dynDeleteU e now false false = .ok (.returned b, s') := by
  obtain ⟨k1, k2, k3⟩ := actualRemoveU_eq s e false false
  unfold dynDelete at h
  unfold dynDeleteU
  simp only [bind, Except.bind] at h ⊢
  cases ha : s.actualRemove e with
  | error f => rw [ha] at h; cases h
  | ok q =>
    obtain ⟨o, s1⟩ := q
    rw [ha] at h
    cases o with
    | none =>
      cases h
      rcases k3 _ ha with h3 | h3
      · rw [h3]
      · cases h3.1
    | some c =>
      cases h
      rw [k2 c s1 ha]
      simp only [Bool.and_false, Bool.false_eq_true, if_false]
      split <;> rfl

theorem dynRemoveU_plain {s : SparseSet V} {e : EId} {now : Nat} {b s'} (h : s.dynRemove e now = .ok (b, s')) :
    s.dynRemoveU e now false false = .ok (.returned b, s') := by
  obtain ⟨k1, k2, k3⟩ := actualRemoveU_eq s e false false
  unfold dynRemove at h
  unfold dynRemoveU
  simp only [bind, Except.bind] at h ⊢
  cases ha : s.actualRemove e with
  | error f => rw [ha] at h; cases h
  | ok q =>
    obtain ⟨o, s1⟩ := q
    rw [ha] at h
    cases o with
    | none =>
      cases h
      rcases k3 _ ha with h3 | h3
      · rw [h3]
      · cases h3.1
    | some c =>
      cases h
      rw [k2 c s1 ha]
      simp only [Bool.and_false, Bool.false_eq_true, if_false]

end SparseSet

namespace Entities

theorem clearLoopU_plain (f : Nat → Bool) (hf : ∀ i, f i = false) (n : Nat) : ∀ (d : List EId) (la : Nat) {d' c},
    clearLoop d la n = .ok (d', c) → clearLoopU f d la n = .ok (d', c, false) := by
  induction n with
  | zero => intro d la d' c h; cases h; rfl
  | succ n ih =>
    intro d la d' c h
    unfold clearLoop at h
    unfold clearLoopU
    simp only [bind, Except.bind] at h ⊢
    cases hg : getC d n with
    | error f => rw [hg] at h; cases h
    | ok id =>
      rw [hg] at h
      simp only at h ⊢
      cases hb : id.bumpGen with
      | none =>
        rw [hb] at h
        simp only at h ⊢
        cases hs : id.setIndex la with
        | error f => rw [hs] at h; cases h
        | ok b' => rw [hs] at h; exact ih _ _ h
      | some b =>
        rw [hb] at h
        simp only [hf, Bool.false_eq_true, if_false] at h ⊢
        cases hs : b.setIndex la with
        | error f => rw [hs] at h; cases h
        | ok b' =>
          rw [hs] at h
          simp only at h ⊢
          cases hc : clearLoop (d.set n b') n n with
          | error f => rw [hc] at h; cases h
          | ok q => rw [hc] at h; cases h; rw [ih _ _ hc]

theorem clearU_plain {s s' : Entities} (h : s.clear = .ok s') :
    s.clearU (fun _ => false) = .ok (.returned (), s') := by
  unfold clear at h
  unfold clearU
  split
  · rename_i hb; rw [if_pos hb] at h; cases h; rfl
  · rename_i hb
    rw [if_neg hb] at h
    simp only [bind, Except.bind] at h ⊢
    cases hc : clearLoop s.data (if s.data.length = EId.maxIndex then 0 else EId.maxIndex) s.data.length with
    | error f => rw [hc] at h; cases h
    | ok q =>
      obtain ⟨d, c⟩ := q
      rw [hc] at h
      rw [clearLoopU_plain (fun i => s.hook && false) (by simp) _ _ _ hc]
      simp only [Bool.false_eq_true, if_false] at h ⊢
      cases h2 : d.findIdx? (fun id => decide (id.gen < EId.MAX_GEN)) with
      | none => rw [h2] at h; cases h
      | some b =>
        cases h3 : d.reverse.findIdx? (fun id => decide (id.gen < EId.MAX_GEN)) with
        | none => rw [h2, h3] at h; cases h
        | some e => rw [h2, h3] at h; cases h; rfl

theorem deleteUncheckedU_plain {s s' : Entities} {e b} (h : s.deleteUnchecked e = .ok (b, s')) :
    s.deleteUncheckedU e false = .ok (.returned b, s') := by
  unfold deleteUncheckedU
  simp only [h, bind, Except.bind, Bool.and_false, Bool.false_eq_true, if_false]

end Entities

namespace World

/-- How the plain functions report what `Out` reports. -/
def endOf : Ended → Out Unit
  | .returned => .returned ()
  | .panicked => .unwound .refused

theorem addAllU_plain (e : EId) (now : Nat) (cs : List (Nat × Option V)) : ∀ (i : Nat) (w : World V) {r w'},
    addAll fl e now cs w = .ok (r, w') → addAllU fl calm e now i cs w = .ok (endOf r, w') := by
  induction cs with
  | nil => intro i w r w' h; cases h; rfl
  | cons c cs ih =>
    intro i w r w' h
    obtain ⟨k, c⟩ := c
    cases c with
    | none => exact ih i w h
    | some v =>
      simp only [addAll, bind, Except.bind] at h
      simp only [addAllU, calm, bind, Except.bind]
      rw [SparseSet.insertU_plain]
      cases hi : (World.stoOr fl w k).insert e v now with
      | error f => rw [hi] at h; cases h
      | ok q =>
        obtain ⟨q, s'⟩ := q
        rw [hi] at h
        simp only at h
        cases q with
        | notInserted => cases h; rfl
        | inserted => exact ih _ _ h
        | componentOverride old => exact ih _ _ h
        | otherComponentOverride => exact ih _ _ h

theorem mapStosU_plain {f : Nat → SparseSet V → Res (SparseSet V)}
    {g : Nat → SparseSet V → Res (Out Unit × SparseSet V)}
    (hfg : ∀ k s s', f k s = .ok s' → g k s = .ok (.returned (), s')) (l : List (Nat × SparseSet V)) {l'}
    (h : mapStos f l = .ok l') : mapStosU g l = .ok (.returned (), l') := by
  induction l generalizing l' with
  | nil => cases h; rfl
  | cons c l ih =>
    obtain ⟨k, s⟩ := c
    simp only [mapStos, bind, Except.bind] at h
    cases hf : f k s with
    | error e => rw [hf] at h; cases h
    | ok s' =>
      rw [hf] at h
      simp only at h
      cases hm : mapStos f l with
      | error e => rw [hm] at h; cases h
      | ok l1 =>
        rw [hm] at h
        cases h
        simp only [mapStosU, hfg k s s' hf, ih hm, bind, Except.bind]

theorem stoDeleteU_plain {e : EId} {now : Nat} {s s' : SparseSet V} (h : stoDelete e now s = .ok s') :
    stoDeleteU (false, false) e now s = .ok (.returned (), s') := by
  unfold stoDelete at h
  unfold stoDeleteU
  simp only [bind, Except.bind] at h ⊢
  cases hd : s.dynDelete e now with
  | error f => rw [hd] at h; cases h
  | ok q => rw [hd] at h; cases h; rw [SparseSet.dynDeleteU_plain hd]

theorem stripU_plain {w w' : World V} {e : EId} (h : w.strip e = .ok w') :
    w.stripU calm e = .ok (.returned (), w') := by
  unfold World.strip at h
  unfold World.stripU
  simp only [bind, Except.bind] at h ⊢
  cases hm : mapStos (fun _ => stoDelete e w.counter) w.stos with
  | error f => rw [hm] at h; cases h
  | ok l =>
    rw [hm] at h
    cases h
    rw [mapStosU_plain (g := fun k => stoDeleteU (calm k) e w.counter) (fun k s s' hs => stoDeleteU_plain hs) _ hm]

theorem retainStorageByIdU_plain {w w' : World V} {e : EId} {keep} (h : w.retainStorageById e keep = .ok w') :
    w.retainStorageByIdU calm e keep = .ok (.returned (), w') := by
  unfold World.retainStorageById at h
  unfold World.retainStorageByIdU
  simp only [bind, Except.bind] at h ⊢
  cases hm : mapStos (fun k s => if keep.contains k then .ok s else stoDelete e w.counter s) w.stos with
  | error f => rw [hm] at h; cases h
  | ok l =>
    rw [hm] at h
    cases h
    rw [mapStosU_plain (g := fun k s => if keep.contains k then .ok (.returned (), s)
      else stoDeleteU (calm k) e w.counter s) (fun k s s' hs => ?_) _ hm]
    by_cases hk : keep.contains k = true
    · rw [if_pos hk] at hs ⊢; cases hs; rfl
    · rw [if_neg hk] at hs ⊢; exact stoDeleteU_plain hs

theorem stoDeleteAllU_plain (now : Nat) (es : List EId) : ∀ (i : Nat) {s s' : SparseSet V},
    stoDeleteAll now es s = .ok s' → stoDeleteAllU calm now i es s = .ok (.returned (), s') := by
  induction es with
  | nil => intro i s s' h; cases h; rfl
  | cons e es ih =>
    intro i s s' h
    simp only [stoDeleteAll, bind, Except.bind] at h
    cases hd : stoDelete e now s with
    | error f => rw [hd] at h; cases h
    | ok s1 =>
      rw [hd] at h
      simp only [stoDeleteAllU, calm, bind, Except.bind]
      rw [stoDeleteU_plain hd]
      exact ih _ h

theorem bulkStripU_plain {w w' : World V} {es : List EId} (h : w.bulkStrip es = .ok w') :
    w.bulkStripU (fun _ => calm) es = .ok (.returned (), w') := by
  unfold World.bulkStrip at h
  unfold World.bulkStripU
  simp only [bind, Except.bind] at h ⊢
  cases hm : mapStos (fun _ => stoDeleteAll w.counter es) w.stos with
  | error f => rw [hm] at h; cases h
  | ok l =>
    rw [hm] at h
    cases h
    rw [mapStosU_plain (g := fun _ => stoDeleteAllU calm w.counter 0 es)
      (fun k s s' hs => stoDeleteAllU_plain _ _ 0 hs) _ hm]

theorem deleteEntityU_plain {w w' : World V} {e : EId} {b} (h : w.deleteEntity e = .ok (b, w')) :
    w.deleteEntityU false calm e = .ok (.returned b, w') := by
  unfold World.deleteEntity at h
  unfold World.deleteEntityU
  simp only [bind, Except.bind] at h ⊢
  cases hd : w.ents.deleteUnchecked e with
  | error f => rw [hd] at h; cases h
  | ok q =>
    obtain ⟨b', ents⟩ := q
    rw [hd] at h
    rw [Entities.deleteUncheckedU_plain hd]
    cases b' with
    | false => cases h; rfl
    | true =>
      simp only [if_true] at h ⊢
      cases hs : World.strip { w with ents := ents } e with
      | error f => rw [hs] at h; cases h
      | ok w1 => rw [hs] at h; cases h; rw [stripU_plain hs]

theorem removeAllU_plain (e : EId) (now : Nat) (ks : List Nat) : ∀ (i : Nat) {w : World V} {rs w'},
    removeAll fl e now ks w = .ok (rs, w') → removeAllU fl calm e now i ks w = .ok (.returned rs, w') := by
  induction ks with
  | nil => intro i w rs w' h; cases h; rfl
  | cons k ks ih =>
    intro i w rs w' h
    simp only [removeAll, bind, Except.bind] at h
    cases hd : (World.stoOr fl w k).dynRemove e now with
    | error f => rw [hd] at h; cases h
    | ok q =>
      rw [hd] at h
      simp only at h
      cases hr : removeAll fl e now ks (w.put k q.2) with
      | error f => rw [hr] at h; cases h
      | ok q2 =>
        rw [hr] at h
        cases h
        simp only [removeAllU, calm, bind, Except.bind]
        rw [SparseSet.dynRemoveU_plain hd]
        simp only
        rw [ih (i + 1) hr]

theorem deleteFirstU_plain (e : EId) (now : Nat) (ks : List Nat) : ∀ (i : Nat) {w : World V} {b w'},
    deleteFirst fl e now ks w = .ok (b, w') → deleteFirstU fl calm e now i ks w = .ok (.returned b, w') := by
  induction ks with
  | nil => intro i w rs w' h; cases h; rfl
  | cons k ks ih =>
    intro i w b w' h
    simp only [deleteFirst, bind, Except.bind] at h
    cases hd : (World.stoOr fl w k).dynDelete e now with
    | error f => rw [hd] at h; cases h
    | ok q =>
      obtain ⟨b', s'⟩ := q
      rw [hd] at h
      simp only [deleteFirstU, calm, bind, Except.bind]
      rw [SparseSet.dynDeleteU_plain hd]
      cases b' with
      | true => cases h; rfl
      | false => exact ih (i + 1) h

theorem sto_clearU_plain {s s' : SparseSet V} {now : Nat} (h : s.clear now = .ok s') :
    s.clearU now false = .ok (.returned (), s') := by
  rw [SparseSet.clearU_eq, h]
  simp

theorem clearU_plain {w w' : World V} (m : Nat) (h : w.clear = .ok w') :
    w.clearU m (fun _ => false) calm = .ok (.returned (), w') := by
  unfold World.clear at h
  simp only [bind, Except.bind] at h
  cases he : w.ents.clear with
  | error f => rw [he] at h; cases h
  | ok ents =>
    rw [he] at h
    simp only at h
    cases hm : mapStos (fun _ s => SparseSet.clear s w.counter) w.stos with
    | error f => rw [hm] at h; cases h
    | ok l =>
      rw [hm] at h
      cases h
      have h1 := mapStosU_plain (g := fun k s => s.clearU w.counter (calm k).2)
        (fun k s s' hs => sto_clearU_plain hs) _ hm
      rw [← List.take_append_drop m w.stos, mapStosU_append] at h1
      unfold World.clearU
      simp only [bind, Except.bind]
      cases h2 : mapStosU (fun k s => s.clearU w.counter (calm k).2) (w.stos.take m) with
      | error f => rw [h2] at h1; cases h1
      | ok q =>
        obtain ⟨o, l1⟩ := q
        rw [h2] at h1
        cases o with
        | unwound u => cases h1
        | returned _ =>
          simp only at h1 ⊢
          rw [Entities.clearU_plain he]
          simp only
          cases h3 : mapStosU (fun k s => s.clearU w.counter (calm k).2) (w.stos.drop m) with
          | error f => rw [h3] at h1; cases h1
          | ok q =>
            obtain ⟨o, l2⟩ := q
            rw [h3] at h1; cases h1; rfl

theorem deleteAnyCollectU_plain (now : Nat) (ks : List Nat) : ∀ (i : Nat) {w : World V} {ids w'},
    deleteAnyCollect now ks w = .ok (ids, w') →
      deleteAnyCollectU calm now i ks w = .ok (.returned ids, w') := by
  induction ks with
  | nil => intro i w ids w' h; cases h; rfl
  | cons k ks ih =>
    intro i w ids w' h
    unfold deleteAnyCollect at h
    unfold deleteAnyCollectU
    cases hl : lookupK w.stos k with
    | none => rw [hl] at h; exact ih _ h
    | some s =>
      rw [hl] at h
      simp only [bind, Except.bind] at h ⊢
      cases hc : s.clear now with
      | error f => rw [hc] at h; cases h
      | ok s' =>
        rw [hc] at h
        simp only at h
        cases hr : deleteAnyCollect now ks (w.put k s') with
        | error f => rw [hr] at h; cases h
        | ok q =>
          rw [hr] at h
          cases h
          rw [show (calm i).2 = false from rfl, sto_clearU_plain hc]
          simp only
          rw [ih (i + 1) hr]

theorem deleteEntitiesU_plain (es : List EId) : ∀ (i : Nat) {w w' : World V}, deleteEntities es w = .ok w' →
    deleteEntitiesU (fun _ => (false, calm)) i es w = .ok (.returned (), w') := by
  induction es with
  | nil => intro i w w' h; cases h; rfl
  | cons e es ih =>
    intro i w w' h
    simp only [deleteEntities, bind, Except.bind] at h
    cases hd : w.deleteEntity e with
    | error f => rw [hd] at h; cases h
    | ok q =>
      rw [hd] at h
      simp only [deleteEntitiesU, bind, Except.bind]
      rw [deleteEntityU_plain hd]
      exact ih _ h

theorem deleteAnyU_plain {w w' : World V} {ks order} (h : w.deleteAny ks order = .ok w') :
    w.deleteAnyU calm (fun _ => (false, calm)) ks order = .ok (.returned (), w') := by
  unfold World.deleteAny at h
  unfold World.deleteAnyU
  simp only [bind, Except.bind] at h ⊢
  cases hc : deleteAnyCollect w.counter ks w.tick with
  | error f => rw [hc] at h; cases h
  | ok q =>
    rw [hc] at h
    rw [deleteAnyCollectU_plain _ _ 0 hc]
    exact deleteEntitiesU_plain _ 0 h

theorem putOptU_plain {o o' : World V} {k dst nowO c} (h : putOpt fl o k dst nowO c = .ok o') :
    putOptU fl (false, false) o k dst nowO c = .ok (.returned (), o') := by
  cases c with
  | none => cases h; rfl
  | some v =>
    simp only [putOpt, bind, Except.bind] at h
    simp only [putOptU, bind, Except.bind]
    rw [SparseSet.insertU_plain]
    cases hi : (World.stoOr fl o k).insert dst v nowO with
    | error f => rw [hi] at h; cases h
    | ok q =>
      obtain ⟨q, s'⟩ := q
      rw [hi] at h
      cases h
      cases q <;> rfl

theorem moveLoopU_plain (src dst : EId) (now nowO : Nat) (l : List (Nat × SparseSet V)) :
    ∀ {o : World V} {l' o'}, moveLoop fl src dst now nowO l o = .ok (l', o') →
    moveLoopU fl calm calm src dst now nowO l o = .ok (.returned (), l', o') := by
  induction l with
  | nil => intro o l' o' h; cases h; rfl
  | cons x l ih =>
    obtain ⟨k, s⟩ := x
    intro o l' o' h
    simp only [moveLoop, bind, Except.bind] at h
    simp only [moveLoopU, bind, Except.bind]
    cases hd : s.dynRemove src now with
    | error f => rw [hd] at h; cases h
    | ok q =>
      rw [hd] at h
      simp only at h
      cases hp : putOpt fl o k dst nowO q.1 with
      | error f => rw [hp] at h; cases h
      | ok o1 =>
        rw [hp] at h
        simp only at h
        cases hm : moveLoop fl src dst now nowO l o1 with
        | error f => rw [hm] at h; cases h
        | ok r =>
          rw [hm] at h
          cases h
          have h1 : s.dynRemoveU src now (calm k).1 (calm k).2 = .ok (.returned q.1, q.2) :=
            SparseSet.dynRemoveU_plain hd
          have h2 : putOptU fl (calm k) o k dst nowO q.1 = .ok (.returned (), o1) := putOptU_plain hp
          rw [h1]
          simp only
          rw [h2]
          simp only
          rw [ih hm]

theorem moveEntityU_plain {w o w' o' : World V} {e r} (h : w.moveEntity fl o e = .ok (r, w', o')) :
    w.moveEntityU fl false calm calm o e = .ok (endOf r, w', o') := by
  unfold World.moveEntity at h
  unfold World.moveEntityU
  simp only [bind, Except.bind] at h ⊢
  cases hd : w.ents.deleteUnchecked e with
  | error f => rw [hd] at h; cases h
  | ok q =>
    obtain ⟨b, ents⟩ := q
    rw [hd] at h
    rw [Entities.deleteUncheckedU_plain hd]
    cases b with
    | false => cases h; rfl
    | true =>
      simp only [if_true] at h ⊢
      cases hs : o.ents.spawn e with
      | error f => rw [hs] at h; cases h
      | ok q2 =>
        obtain ⟨b2, entsO⟩ := q2
        rw [hs] at h
        cases b2 with
        | false => cases h; rfl
        | true =>
          simp only [if_true] at h ⊢
          cases hm : moveLoop fl e e w.counter o.counter w.stos { o.tick with ents := entsO } with
          | error f => rw [hm] at h; cases h
          | ok q3 => rw [hm] at h; cases h; rw [moveLoopU_plain _ _ _ _ _ hm]; rfl

theorem moveComponentsU_plain {w o w' o' : World V} {src dst r}
    (h : w.moveComponents fl o src dst = .ok (r, w', o')) :
    w.moveComponentsU fl calm calm o src dst = .ok (endOf r, w', o') := by
  unfold World.moveComponents at h
  unfold World.moveComponentsU
  simp only [bind, Except.bind] at h ⊢
  split
  · rename_i h1
    rw [if_pos h1] at h
    split
    · rename_i h2
      rw [if_pos h2] at h
      cases hm : moveLoop fl src dst w.counter o.counter w.stos o.tick with
      | error f => rw [hm] at h; cases h
      | ok q3 => rw [hm] at h; cases h; rw [moveLoopU_plain _ _ _ _ _ hm]; rfl
    · rename_i h2; rw [if_neg h2] at h; cases h; rfl
  · rename_i h1; rw [if_neg h1] at h; cases h; rfl

theorem cloneCompLoopU_plain (cl : Nat → V → V) (src dst : EId) (nowO : Nat) (l : List (Nat × SparseSet V)) :
    ∀ {o o' : World V}, cloneCompLoop fl cl src dst nowO l o = .ok o' →
    cloneCompLoopU fl cl (fun _ => false) calm src dst nowO l o = .ok (.returned (), o') := by
  induction l with
  | nil => intro o o' h; cases h; rfl
  | cons x l ih =>
    obtain ⟨k, s⟩ := x
    intro o o' h
    simp only [cloneCompLoop, bind, Except.bind] at h
    simp only [cloneCompLoopU, bind, Except.bind]
    cases hd : cloneOf cl src k s with
    | error f => rw [hd] at h; cases h
    | ok c =>
      rw [hd] at h
      simp only at h
      cases hp : putOpt fl o k dst nowO c with
      | error f => rw [hp] at h; cases h
      | ok o1 =>
        rw [hp] at h
        simp only at h
        cases c with
        | none => cases hp; exact ih h
        | some v =>
          have h2 : putOptU fl (calm k) o k dst nowO (some v) = .ok (.returned (), o1) := putOptU_plain hp
          simp only [Bool.false_eq_true, if_false]
          rw [h2]
          exact ih h

theorem cloneEntityToU_plain {w o o' : World V} {cl e r} (h : w.cloneEntityTo fl cl o e = .ok (r, o')) :
    w.cloneEntityToU fl cl (fun _ => false) calm o e = .ok (endOf r, o') := by
  unfold World.cloneEntityTo at h
  unfold World.cloneEntityToU
  simp only [bind, Except.bind] at h ⊢
  split
  · rename_i h1
    rw [if_pos h1] at h
    cases hs : o.ents.spawn e with
    | error f => rw [hs] at h; cases h
    | ok q2 =>
      obtain ⟨b2, entsO⟩ := q2
      rw [hs] at h
      cases b2 with
      | false => cases h; rfl
      | true =>
        simp only [if_true] at h ⊢
        cases hm : cloneCompLoop fl cl e e o.counter w.stos { o.tick with ents := entsO } with
        | error f => rw [hm] at h; cases h
        | ok q3 => rw [hm] at h; cases h; rw [cloneCompLoopU_plain _ _ _ _ _ hm]; rfl
  · rename_i h1; rw [if_neg h1] at h; cases h; rfl

theorem cloneComponentsToU_plain {w o o' : World V} {cl src dst r}
    (h : w.cloneComponentsTo fl cl o src dst = .ok (r, o')) :
    w.cloneComponentsToU fl cl (fun _ => false) calm o src dst = .ok (endOf r, o') := by
  unfold World.cloneComponentsTo at h
  unfold World.cloneComponentsToU
  simp only [bind, Except.bind] at h ⊢
  split
  · rename_i h1
    rw [if_pos h1] at h
    split
    · rename_i h2
      rw [if_pos h2] at h
      cases hm : cloneCompLoop fl cl src dst o.counter w.stos o.tick with
      | error f => rw [hm] at h; cases h
      | ok q3 => rw [hm] at h; cases h; rw [cloneCompLoopU_plain _ _ _ _ _ hm]; rfl
    · rename_i h2; rw [if_neg h2] at h; cases h; rfl
  · rename_i h1; rw [if_neg h1] at h; cases h; rfl

end World
end Verif
