import Verif.Spec.World
import Verif.Lemmas.Lives
import Verif.Lemmas.StorageSpec
import Verif.Lemmas.EntitiesReach

/-! Worlds as tables: the invariant of reachable worlds and the effect of each call on it. -/
namespace Verif.World
open EntSpec (Event issued)
open StoSpec (Sto Row lookup setRow Valid removeRow insertRow)
open Entities (Inv Bounded genAt)
open SparseSet (Abs)
variable {V : Type} {fl : Flags}

/-! ## The storage map -/

theorem lookupK_setK {α : Type} (l : List (Nat × α)) (k : Nat) (a : α) (j : Nat) :
    lookupK (setK l k a) j = if j = k then some a else lookupK l j := by
  induction l with
  | nil => simp [setK, lookupK]
  | cons x l ih =>
    obtain ⟨i, b⟩ := x
    unfold setK
    split
    · rename_i hk; subst hk
      simp only [lookupK]
      split <;> rfl
    · rename_i hk
      simp only [lookupK, ih]
      split
      · rename_i hj; subst hj; rw [if_neg (fun h => hk h.symm)]
      · rfl

theorem setK_keys {α : Type} (l : List (Nat × α)) (k : Nat) (a : α) (j : Nat) :
    j ∈ (setK l k a).map Prod.fst ↔ j = k ∨ j ∈ l.map Prod.fst := by
  induction l with
  | nil => simp [setK]
  | cons x l ih =>
    obtain ⟨i, b⟩ := x
    unfold setK
    split
    · rename_i hk; subst hk; simp
    · simp only [List.map_cons, List.mem_cons, ih]
      constructor
      · rintro (h | h | h) <;> simp [h]
      · rintro (h | h | h) <;> simp [h]

theorem setK_nodup {α : Type} {l : List (Nat × α)} (h : (l.map Prod.fst).Nodup) (k : Nat) (a : α) :
    ((setK l k a).map Prod.fst).Nodup := by
  induction l with
  | nil => simp [setK]
  | cons x l ih =>
    obtain ⟨i, b⟩ := x
    simp only [List.map_cons, List.nodup_cons] at h
    unfold setK
    split
    · rename_i hk; subst hk; simp only [List.map_cons, List.nodup_cons]; exact h
    · rename_i hk
      simp only [List.map_cons, List.nodup_cons]
      refine ⟨fun hm => ?_, ih h.2⟩
      rw [setK_keys] at hm
      rcases hm with hm | hm
      · exact hk hm.symm
      · exact h.1 hm

theorem lookupK_mem {α : Type} {l : List (Nat × α)} {k : Nat} {a : α} (h : lookupK l k = some a) :
    (k, a) ∈ l := by
  induction l with
  | nil => cases h
  | cons x l ih =>
    obtain ⟨i, b⟩ := x
    unfold lookupK at h
    split at h
    · rename_i hk; cases h; subst hk; simp
    · exact List.mem_cons_of_mem _ (ih h)

theorem lookupK_of_mem {α : Type} {l : List (Nat × α)} (hn : (l.map Prod.fst).Nodup) {k : Nat} {a : α}
    (h : (k, a) ∈ l) : lookupK l k = some a := by
  induction l with
  | nil => cases h
  | cons x l ih =>
    obtain ⟨i, b⟩ := x
    simp only [List.map_cons, List.nodup_cons] at hn
    unfold lookupK
    rcases List.mem_cons.1 h with hm | hm
    · cases hm; rw [if_pos rfl]
    · rw [if_neg, ih hn.2 hm]
      intro hk; subst hk
      exact hn.1 (List.mem_map.2 ⟨(k, a), hm, rfl⟩)

theorem lookupK_none {α : Type} {l : List (Nat × α)} {k : Nat} :
    lookupK l k = none ↔ k ∉ l.map Prod.fst := by
  induction l with
  | nil => simp [lookupK]
  | cons x l ih =>
    obtain ⟨i, b⟩ := x
    unfold lookupK
    split
    · rename_i hk; simp [hk]
    · rename_i hk; simp only [ih, List.map_cons, List.mem_cons, hk, false_or]

theorem lookupK_perm {α : Type} {l l' : List (Nat × α)} (hn : (l.map Prod.fst).Nodup) (hp : l.Perm l')
    (k : Nat) : lookupK l' k = lookupK l k := by
  have hn' : (l'.map Prod.fst).Nodup := (hp.map _).nodup_iff.1 hn
  cases h : lookupK l k with
  | some a => exact lookupK_of_mem hn' (hp.mem_iff.1 (lookupK_mem h))
  | none =>
    rw [lookupK_none] at h ⊢
    exact fun hm => h ((hp.map _).mem_iff.2 hm)

theorem mapStos_ok {f : Nat → SparseSet V → Res (SparseSet V)} {l : List (Nat × SparseSet V)}
    (h : ∀ k s, (k, s) ∈ l → ∃ s', f k s = .ok s') :
    ∃ l', mapStos f l = .ok l' ∧ l'.map Prod.fst = l.map Prod.fst ∧
      ∀ j, (lookupK l j = none → lookupK l' j = none) ∧
        ∀ s, lookupK l j = some s → ∃ s', lookupK l' j = some s' ∧ f j s = .ok s' := by
  induction l with
  | nil => exact ⟨[], rfl, rfl, fun j => ⟨fun _ => rfl, fun s hs => by cases hs⟩⟩
  | cons x l ih =>
    obtain ⟨k, s⟩ := x
    obtain ⟨s', hs'⟩ := h k s List.mem_cons_self
    obtain ⟨l', h1, h2, h3⟩ := ih (fun k s hm => h k s (List.mem_cons_of_mem _ hm))
    refine ⟨(k, s') :: l', ?_, ?_, ?_⟩
    · simp only [mapStos, hs', h1, bind, Except.bind]
    · simp [h2]
    · intro j
      by_cases hj : j = k
      · subst hj
        simp only [lookupK, if_pos]
        refine ⟨(fun h => by cases h), ?_⟩
        intro t ht
        cases ht
        exact ⟨s', rfl, hs'⟩
      · simp only [lookupK, if_neg hj]
        exact h3 j

/-! ## The invariant -/

/-- A clean storage with its cells and its life. -/
structure AbsW (s : SparseSet V) (a : Sto V) (L : List (SparseSet.Cell V)) : Prop extends Abs True s a L where
  lives : StoSpec.Lives s a

theorem absW_new (a b c d : Bool) : AbsW (SparseSet.new a b c d : SparseSet V) (Sto.init a b c d) [] :=
  ⟨SparseSet.abs_new a b c d, .new a b c d⟩

theorem AbsW.call {s s' : SparseSet V} {a : Sto V} {L} {ev : StoSpec.Event V} (h : AbsW s a L)
    (hs : StoSpec.Step s ev s') (hev : ∀ e v now, ev ≠ .inserted e v now .otherComponentOverride) :
    ∃ L', AbsW s' (StoSpec.step a ev) L' := by
  obtain ⟨L', hL'⟩ := SparseSet.abs_step (Q := True) h.toAbs hs (fun q => q) (fun _ => hev)
  exact ⟨L', hL', .call h.lives hs hev⟩

/-- A storage slot of the map against its table. -/
inductive StoOK : Option (SparseSet V) → Option (Sto V) → Prop where
  | none : StoOK none none
  | some {s a L} : AbsW s a L → StoOK (some s) (some a)

/-- The table of a storage that may not exist. -/
def tabOr (fl : Flags) (A : Nat → Option (Sto V)) (k : Nat) : Sto V :=
  (A k).getD (Sto.init (fl k).1 (fl k).2.1 (fl k).2.2.1 (fl k).2.2.2)

/-- Change the table of one storage. -/
def setTab (A : Nat → Option (Sto V)) (k : Nat) (a : Sto V) : Nat → Option (Sto V) :=
  fun j => if j = k then some a else A j

/-- The component of `e` in storage `k`. -/
def look (A : Nat → Option (Sto V)) (k : Nat) (e : EId) : Option V := (A k).bind fun a => lookup a.rows e

/-- The entity part: free list, ids handed out so far, generations below the dead one. -/
structure EntOK (s : Entities) (Q : List Nat) (I : List EId) : Prop where
  inv : Inv s Q
  bnd : Bounded s Q I
  gens : ∀ i g, s.genAt i = some g → g < 65535

/-- Every row belongs to an alive entity. -/
def Owned (s : Entities) (a : Sto V) : Prop := ∀ i r, a.rows i = some r → s.isAlive ⟨i, r.gen⟩ = true

/-- The invariant of reachable worlds: `A` are the tables of the storages. -/
structure Ok (w : World V) (A : Nat → Option (Sto V)) (Q : List Nat) (I : List EId) : Prop where
  ent : EntOK w.ents Q I
  nodup : (w.stos.map Prod.fst).Nodup
  sto : ∀ k, StoOK (lookupK w.stos k) (A k)
  owned : ∀ k a, A k = some a → Owned w.ents a

theorem EntOK.valid {s : Entities} {Q : List Nat} {I : List EId} (h : EntOK s Q I) {e : EId}
    (ha : s.isAlive e = true) : Valid e := by
  obtain ⟨_, h2⟩ := (h.inv.isAlive_iff_genAt e).1 ha
  refine ⟨h.gens _ _ h2, ?_⟩
  have h3 := Entities.genAt_lt h2
  have h4 := h.inv.cap
  have h5 : EId.maxIndex < EId.INDEX_MASK := by decide
  omega

theorem alive_same {s : Entities} {x y : EId}
    (hx : s.isAlive x = true) (hy : s.isAlive y = true) (hi : x.idx = y.idx) : x = y := by
  rw [Inv.isAlive_iff] at hx hy
  rw [hi, hy] at hx
  cases hx; rfl

namespace Ok
variable {w : World V} {A : Nat → Option (Sto V)} {Q : List Nat} {I : List EId}

theorem get (h : Ok w A Q I) (k : Nat) {e : EId} (he : e.gen < 65535) :
    w.get k e = .ok (look A k e) := by
  have := h.sto k
  unfold World.get look
  generalize lookupK w.stos k = so at this
  generalize A k = ao at this
  cases this with
  | none => rfl
  | some ha => exact ha.get he

theorem rowAt (h : Ok w A Q I) {k : Nat} {a : Sto V} (ha : A k = some a) {e : EId}
    (hal : w.ents.isAlive e = true) {r : Row V} (hr : a.rows e.idx = some r) : r.gen = e.gen := by
  have := alive_same (h.owned k a ha _ r hr) hal rfl
  rw [← this]

theorem stoOr (h : Ok w A Q I) (k : Nat) : ∃ L, AbsW (w.stoOr fl k) (tabOr fl A k) L := by
  have := h.sto k
  unfold World.stoOr tabOr
  generalize lookupK w.stos k = so at this
  generalize A k = ao at this
  cases this with
  | none => exact ⟨[], absW_new _ _ _ _⟩
  | some ha => exact ⟨_, ha⟩

theorem tabOr_owned (h : Ok w A Q I) (k : Nat) : Owned w.ents (tabOr fl A k) := by
  unfold tabOr
  cases ha : A k with
  | none => intro i r hr; cases hr
  | some a => exact h.owned k a ha

/-- Writing back one storage. -/
theorem put (h : Ok w A Q I) (k : Nat) {s : SparseSet V} {a : Sto V} {L} (hs : AbsW s a L)
    (ho : Owned w.ents a) : Ok (w.put k s) (setTab A k a) Q I where
  ent := h.ent
  nodup := setK_nodup h.nodup k s
  sto := by
    intro j
    show StoOK (lookupK (setK w.stos k s) j) (if j = k then some a else A j)
    rw [lookupK_setK]
    split
    · exact .some hs
    · exact h.sto j
  owned := by
    intro j b hb
    unfold setTab at hb
    split at hb
    · cases hb; exact ho
    · exact h.owned j b hb

theorem tick (h : Ok w A Q I) : Ok w.tick A Q I := ⟨h.ent, h.nodup, h.sto, h.owned⟩

/-- Changing the entities only. -/
theorem ents (h : Ok w A Q I) {s : Entities} {Q' : List Nat} {I' : List EId} (hs : EntOK s Q' I')
    (ho : ∀ k a i r, A k = some a → a.rows i = some r → s.isAlive ⟨i, r.gen⟩ = true) :
    Ok { w with ents := s } A Q' I' :=
  ⟨hs, h.nodup, h.sto, fun k a ha i r hr => ho k a i r ha hr⟩

/-- A loop over all storages. -/
theorem mapAll (h : Ok w A Q I) {f : Nat → SparseSet V → Res (SparseSet V)} {g : Nat → Sto V → Sto V}
    (hf : ∀ k s a L, AbsW s a L → A k = some a → lookupK w.stos k = some s →
      ∃ s' L', f k s = .ok s' ∧ AbsW s' (g k a) L') :
    ∃ l, mapStos f w.stos = .ok l ∧ (l.map Prod.fst).Nodup ∧
      ∀ k, StoOK (lookupK l k) ((A k).map (g k)) := by
  obtain ⟨l, h1, h2, h3⟩ := mapStos_ok (f := f) (l := w.stos) (by
    intro k s hm
    have hl := lookupK_of_mem h.nodup hm
    have hk := h.sto k
    rw [hl] at hk
    generalize hA : A k = ao at hk
    cases hk with
    | some ha =>
      obtain ⟨s', _, hs', _⟩ := hf k s _ _ ha hA hl
      exact ⟨s', hs'⟩)
  refine ⟨l, h1, by rw [h2]; exact h.nodup, ?_⟩
  intro k
  have hk := h.sto k
  cases hl : lookupK w.stos k with
  | none =>
    rw [hl] at hk
    rw [(h3 k).1 hl]
    generalize A k = ao at hk
    cases hk
    exact .none
  | some s =>
    rw [hl] at hk
    obtain ⟨s', h4, h5⟩ := (h3 k).2 s hl
    rw [h4]
    generalize hA : A k = ao at hk
    cases hk with
    | some ha =>
      obtain ⟨s'', L', h6, h7⟩ := hf k s _ _ ha hA hl
      rw [h5] at h6
      cases h6
      exact .some h7

end Ok

/-! ## Storage operations on tables -/

/-- The table after `delete(e)`. -/
def delTab (e : EId) (now : Nat) (a : Sto V) : Sto V :=
  StoSpec.step a (.deleted e now (lookup a.rows e))

/-- The table after `remove(e)`. -/
def remTab (e : EId) (now : Nat) (a : Sto V) : Sto V :=
  StoSpec.step a (.removed e now (lookup a.rows e))

/-- The table after inserting for `e`. -/
def insTab (e : EId) (v : V) (now : Nat) (a : Sto V) : Sto V :=
  StoSpec.step a (.inserted e v now .inserted)

theorem stoDelete_ok {s : SparseSet V} {a : Sto V} {L} (h : AbsW s a L) {e : EId} (he : Valid e)
    (now : Nat) : ∃ s' L', stoDelete e now s = .ok s' ∧ AbsW s' (delTab e now a) L' := by
  obtain ⟨r, sp', L', h1, _, _⟩ := SparseSet.dynDelete_ok (s := s) h.ok (.inl he.1) now
  rw [← h.shape] at h1
  obtain ⟨L'', h2⟩ := h.call (.delete he (h.get he.1) h1) (fun _ _ _ h => by cases h)
  exact ⟨_, L'', by simp only [stoDelete, h1, bind, Except.bind], h2⟩

theorem dynDelete_tab {s : SparseSet V} {a : Sto V} {L} (h : AbsW s a L) {e : EId} (he : Valid e)
    (now : Nat) : ∃ s' L', s.dynDelete e now = .ok ((lookup a.rows e).isSome, s') ∧
      AbsW s' (delTab e now a) L' := by
  obtain ⟨r, sp', L', h1, _, _⟩ := SparseSet.dynDelete_ok (s := s) h.ok (.inl he.1) now
  rw [← h.shape] at h1
  obtain ⟨hb, _⟩ := SparseSet.abs_delete (Q := True) h.toAbs he (h.get he.1) h1 (fun q => q)
  obtain ⟨L'', h2⟩ := h.call (.delete he (h.get he.1) h1) (fun _ _ _ h => by cases h)
  exact ⟨_, L'', by rw [h1, hb], h2⟩

theorem dynRemove_tab {s : SparseSet V} {a : Sto V} {L} (h : AbsW s a L) {e : EId} (he : Valid e)
    (now : Nat) : ∃ s' L', s.dynRemove e now = .ok (lookup a.rows e, s') ∧
      AbsW s' (remTab e now a) L' := by
  obtain ⟨r, sp', L', h1, _, _⟩ := SparseSet.dynRemove_ok (s := s) h.ok (.inl he.1) now
  rw [← h.shape] at h1
  obtain ⟨hb, _⟩ := SparseSet.abs_remove (Q := True) h.toAbs he h1 (fun q => q)
  subst hb
  obtain ⟨L'', h2⟩ := h.call (.remove he h1) (fun _ _ _ h => by cases h)
  exact ⟨_, L'', h1, h2⟩

/-- Inserting where only the same entity may own a component. -/
theorem insert_tab {s : SparseSet V} {a : Sto V} {L} (h : AbsW s a L) {e : EId} (he : Valid e)
    (hown : ∀ r, a.rows e.idx = some r → r.gen = e.gen) (v : V) (now : Nat) :
    ∃ r s' L', s.insert e v now = .ok (r, s') ∧ r.wasInserted = true ∧
      AbsW s' (insTab e v now a) L' := by
  obtain ⟨r, hook, sp', L', h1, _, h3⟩ := SparseSet.insert_ok (s := s) h.ok he v now
  rw [← h.shape] at h1
  have hrow : ∀ c ∈ L, c.id.idx = e.idx → c.gen = e.gen := by
    intro c hc hi
    have : a.rows e.idx = some c.toRow := by
      rw [h.rows, ← hi, (SparseSet.cellAt_some h.ok).2 ⟨hc, rfl⟩]; rfl
    exact hown _ this
  have hr : r.wasInserted = true ∧ r ≠ .otherComponentOverride := by
    cases h3 with
    | new => exact ⟨rfl, fun h => by cases h⟩
    | override => exact ⟨rfl, fun h => by cases h⟩
    | newer hi hce hlt =>
      have := hrow _ (List.mem_of_getElem? hi) hce
      omega
    | older hc hce hlt =>
      have := hrow _ hc hce
      omega
  obtain ⟨L'', h2⟩ := h.call (.insert he h1) (fun _ _ _ h => by cases h; exact hr.2 rfl)
  exact ⟨r, _, L'', h1, hr.1, h2⟩

theorem rows_delTab (e : EId) (now : Nat) (a : Sto V) :
    (delTab e now a).rows = setRow a.rows e.idx (removeRow a e) := rfl
theorem rows_remTab (e : EId) (now : Nat) (a : Sto V) :
    (remTab e now a).rows = setRow a.rows e.idx (removeRow a e) := rfl
theorem rows_insTab (e : EId) (v : V) (now : Nat) (a : Sto V) :
    (insTab e v now a).rows = setRow a.rows e.idx (insertRow a e v now) := rfl

/-- Rows are only taken away or rewritten for the same entity. -/
def Shrinks (a b : Sto V) : Prop := ∀ i r, b.rows i = some r → ∃ r', a.rows i = some r' ∧ r'.gen = r.gen

theorem Shrinks.owned {s : Entities} {a b : Sto V} (h : Shrinks a b) (ho : Owned s a) : Owned s b := by
  intro i r hr
  obtain ⟨r', h1, h2⟩ := h i r hr
  rw [← h2]; exact ho i r' h1

theorem Shrinks.trans {a b c : Sto V} (h : Shrinks a b) (h' : Shrinks b c) : Shrinks a c := by
  intro i r hr
  obtain ⟨r1, h1, h2⟩ := h' i r hr
  obtain ⟨r2, h3, h4⟩ := h i r1 h1
  exact ⟨r2, h3, h4.trans h2⟩

theorem removeRow_some {a : Sto V} {e : EId} {r : Row V} (h : removeRow a e = some r) :
    a.rows e.idx = some r := by
  unfold removeRow at h
  cases ha : a.rows e.idx with
  | none => rw [ha] at h; cases h
  | some r' =>
    rw [ha] at h
    simp only [Option.bind] at h
    split at h
    · cases h
    · exact h

theorem delTab_shrinks (e : EId) (now : Nat) (a : Sto V) : Shrinks a (delTab e now a) := by
  intro i r hr
  rw [rows_delTab] at hr
  unfold setRow at hr
  split at hr
  · rename_i hi; subst hi; exact ⟨r, removeRow_some hr, rfl⟩
  · exact ⟨r, hr, rfl⟩

theorem remTab_shrinks (e : EId) (now : Nat) (a : Sto V) : Shrinks a (remTab e now a) :=
  delTab_shrinks e now a

theorem writeRows_shrinks (trk : Bool) (now : Nat) (ws : List (EId × V)) :
    ∀ (rows : Nat → Option (Row V)) i r, StoSpec.writeRows trk now rows ws i = some r →
      ∃ r', rows i = some r' ∧ r'.gen = r.gen := by
  induction ws with
  | nil => intro rows i r h; exact ⟨r, h, rfl⟩
  | cons x ws ih =>
    obtain ⟨e, v⟩ := x
    intro rows i r h
    unfold StoSpec.writeRows at h
    obtain ⟨r1, h1, h2⟩ := ih _ i r h
    unfold setRow at h1
    split at h1
    · rename_i hi; subst hi
      cases hr : rows e.idx with
      | none => rw [hr] at h1; cases h1
      | some r2 =>
        rw [hr] at h1
        cases h1
        exact ⟨r2, rfl, h2⟩
    · exact ⟨r1, h1, h2⟩

theorem step_shrinks {ev : StoSpec.Event V} (hev : WSpec.InsertsNothing ev) (a : Sto V) :
    Shrinks a (StoSpec.step a ev) := by
  cases ev with
  | inserted => exact hev.elim
  | bulk => exact hev.elim
  | removed e now r => exact delTab_shrinks e now a
  | deleted e now r => exact delTab_shrinks e now a
  | wrote ws now => exact fun i r h => writeRows_shrinks _ _ _ _ i r h
  | retained now calls =>
    intro i r h
    simp only [StoSpec.step] at h
    split at h
    · unfold StoSpec.callRow at h
      split at h
      · split at h
        · cases hr : a.rows i with
          | none => rw [hr] at h; cases h
          | some r' => rw [hr] at h; cases h; exact ⟨r', rfl, rfl⟩
        · exact ⟨r, h, rfl⟩
      · cases h
    · exact ⟨r, h, rfl⟩
  | cleared => intro i r h; cases h
  | drained => intro i r h; cases h
  | trackInsertion =>
    intro i r h
    simp only [StoSpec.step] at h
    split at h
    · exact ⟨r, h, rfl⟩
    · simp only at h
      cases hr : a.rows i with
      | none => rw [hr] at h; cases h
      | some r' => rw [hr] at h; cases h; exact ⟨r', rfl, rfl⟩
  | trackModification =>
    intro i r h
    simp only [StoSpec.step] at h
    split at h
    · exact ⟨r, h, rfl⟩
    · simp only at h
      cases hr : a.rows i with
      | none => rw [hr] at h; cases h
      | some r' => rw [hr] at h; cases h; exact ⟨r', rfl, rfl⟩
  | _ => intro i r h; exact ⟨r, h, rfl⟩

/-! ## Reading tables -/

theorem lookup_setRow_none (rows : Nat → Option (Row V)) (i : Nat) (x : EId) :
    lookup (setRow rows i none) x = if x.idx = i then none else lookup rows x := by
  unfold lookup setRow
  split <;> rfl

/-- Deleting for `e` what only `e` may own. -/
theorem lookup_delTab {a : Sto V} {e : EId} (hown : ∀ r, a.rows e.idx = some r → r.gen = e.gen) (now : Nat)
    (x : EId) : lookup (delTab e now a).rows x = if x = e then none else lookup a.rows x := by
  have hrem : removeRow a e = none := by
    unfold removeRow
    cases hr : a.rows e.idx with
    | none => rfl
    | some r => simp only [Option.bind]; rw [if_pos (Nat.le_of_eq (hown r hr))]
  rw [rows_delTab, hrem, lookup_setRow_none]
  split
  · rename_i hi
    split
    · rfl
    · rename_i hne
      unfold lookup
      rw [hi]
      cases hr : a.rows e.idx with
      | none => rfl
      | some r =>
        simp only [Option.bind]
        rw [if_neg]
        intro hg
        apply hne
        cases x; cases e
        simp only at hi hg
        rw [hi, ← hg, hown r hr]
  · rename_i hi
    rw [if_neg (fun h => hi (by rw [h]))]

theorem lookup_remTab {a : Sto V} {e : EId} (hown : ∀ r, a.rows e.idx = some r → r.gen = e.gen) (now : Nat)
    (x : EId) : lookup (remTab e now a).rows x = if x = e then none else lookup a.rows x :=
  lookup_delTab hown now x

/-- Deleting for an id older than the owner changes nothing. -/
theorem delTab_stale {a : Sto V} {e : EId} (hown : ∀ r, a.rows e.idx = some r → e.gen < r.gen) (now : Nat) :
    (delTab e now a).rows = a.rows := by
  rw [rows_delTab]
  apply SparseSet.setRow_self
  unfold removeRow
  cases hr : a.rows e.idx with
  | none => rfl
  | some r => simp only [Option.bind]; rw [if_neg (by have := hown r hr; omega)]

theorem lookup_insTab {a : Sto V} {e : EId} (hown : ∀ r, a.rows e.idx = some r → r.gen = e.gen) (v : V)
    (now : Nat) (x : EId) :
    lookup (insTab e v now a).rows x = if x = e then some v else lookup a.rows x := by
  rw [rows_insTab]
  unfold lookup setRow
  split
  · rename_i hi
    unfold insertRow
    cases hr : a.rows e.idx with
    | none =>
      simp only [Option.bind, hi, hr]
      split
      · rename_i hg
        rw [if_pos (by cases x; cases e; simp_all)]
      · rename_i hg
        rw [if_neg (by intro h; rw [h] at hg; exact hg rfl)]
    | some r =>
      have := hown r hr
      simp only [this, Option.bind, hi, hr, if_true]
      split
      · rename_i hg
        rw [if_pos (by cases x; cases e; simp_all)]
      · rename_i hg
        rw [if_neg (by intro h; rw [h] at hg; exact hg rfl)]
  · rename_i hi
    rw [if_neg (fun h => hi (by rw [h]))]

theorem insTab_owned {s : Entities} {a : Sto V} (ho : Owned s a) {e : EId} (ha : s.isAlive e = true)
    (hown : ∀ r, a.rows e.idx = some r → r.gen = e.gen) (v : V) (now : Nat) :
    Owned s (insTab e v now a) := by
  intro i r hr
  rw [rows_insTab] at hr
  unfold setRow at hr
  split at hr
  · rename_i hi; subst hi
    have hg : r.gen = e.gen := by
      unfold insertRow at hr
      cases hr' : a.rows e.idx with
      | none => rw [hr'] at hr; cases hr; rfl
      | some r' =>
        have := hown r' hr'
        rw [hr'] at hr
        simp only [this, if_true] at hr
        cases hr; rfl
    rw [hg]; exact ha
  · exact ho i r hr

end Verif.World
