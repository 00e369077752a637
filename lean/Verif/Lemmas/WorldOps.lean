import Verif.Lemmas.WorldEnts

/-! The effect of each call on one world. -/
namespace Verif.World
open EntSpec (Event issued aliveStep)
open StoSpec (Sto Row lookup setRow Valid removeRow insertRow)
open Entities (Inv Bounded genAt Effect)
open SparseSet (Abs)
open WSpec (Listed)
variable {V : Type} {fl : Flags}

/-! ## More about tables -/

/-- Deleting for any id: what is lost is exactly the component of a not newer entity at the same index. -/
theorem lookup_delTab' (a : Sto V) (e : EId) (now : Nat) (x : EId) :
    lookup (delTab e now a).rows x = if x.idx = e.idx ∧ x.gen ≤ e.gen then none else lookup a.rows x := by
  rw [rows_delTab]
  unfold lookup setRow removeRow
  by_cases hi : x.idx = e.idx
  · simp only [hi, true_and]
    cases hr : a.rows e.idx with
    | none => simp
    | some r =>
      simp only [Option.bind, if_true]
      by_cases h1 : r.gen ≤ e.gen
      · rw [if_pos h1]
        by_cases h2 : x.gen ≤ e.gen
        · rw [if_pos h2]
        · rw [if_neg h2]
          simp only
          rw [if_neg (by omega)]
      · rw [if_neg h1]
        by_cases h2 : x.gen ≤ e.gen
        · rw [if_pos h2]
          simp only
          rw [if_neg (by omega)]
        · rw [if_neg h2]
  · simp [hi]

theorem look_map (A : Nat → Option (Sto V)) (g : Nat → Sto V → Sto V) (k : Nat) (x : EId) :
    look (fun k => (A k).map (g k)) k x = (A k).bind fun a => lookup (g k a).rows x := by
  show ((A k).map (g k)).bind _ = _
  cases A k <;> rfl

theorem look_setTab (A : Nat → Option (Sto V)) (k : Nat) (a : Sto V) (j : Nat) (x : EId) :
    look (setTab A k a) j x = if j = k then lookup a.rows x else look A j x := by
  unfold look setTab
  split <;> rfl

theorem lookup_tabOr (A : Nat → Option (Sto V)) (k : Nat) (x : EId) :
    lookup (tabOr fl A k).rows x = look A k x := by
  unfold look tabOr
  cases A k <;> rfl

theorem lookup_some {rows : Nat → Option (Row V)} {e : EId} {v : V} (h : lookup rows e = some v) :
    ∃ r, rows e.idx = some r ∧ r.gen = e.gen := by
  unfold lookup at h
  cases hr : rows e.idx with
  | none => rw [hr] at h; cases h
  | some r =>
    rw [hr] at h
    simp only [Option.bind] at h
    split at h
    · rename_i hg; exact ⟨r, rfl, hg⟩
    · cases h

/-- Components are found for alive entities only. -/
theorem Ok.look_alive {w : World V} {A : Nat → Option (Sto V)} {Q : List Nat} {I : List EId}
    (h : Ok w A Q I) {k : Nat} {x : EId} {v : V} (hl : look A k x = some v) : w.ents.isAlive x = true := by
  unfold look at hl
  cases hA : A k with
  | none => rw [hA] at hl; cases hl
  | some a =>
    rw [hA] at hl
    obtain ⟨r, h1, h2⟩ := lookup_some hl
    have := h.owned k a hA _ r h1
    rw [h2] at this
    exact this

theorem Ok.look_dead {w : World V} {A : Nat → Option (Sto V)} {Q : List Nat} {I : List EId}
    (h : Ok w A Q I) (k : Nat) {x : EId} (hx : w.ents.isAlive x = false) : look A k x = none := by
  cases hl : look A k x with
  | none => rfl
  | some v => rw [h.look_alive hl] at hx; cases hx

/-- An id of this world is not newer than the entity alive at its index. -/
theorem EntOK.issued_le {s : Entities} {Q : List Nat} {I : List EId} (h : EntOK s Q I) {e x : EId}
    (he : e ∈ I) (hx : s.isAlive x = true) (hi : x.idx = e.idx) : e.gen ≤ x.gen := by
  obtain ⟨h1, h2⟩ := (h.inv.isAlive_iff_genAt x).1 hx
  obtain ⟨g, hg, hle, _⟩ := h.bnd e he
  rw [hi, hg] at h2
  cases h2
  exact hle

/-! ## Adding components -/

theorem Ok.addAll {w : World V} {A : Nat → Option (Sto V)} {Q : List Nat} {I : List EId} (h : Ok w A Q I)
    {e : EId} (he : w.ents.isAlive e = true) (now : Nat) (cs : List (Nat × Option V)) :
    ∃ w' A', addAll fl e now cs w = .ok (.returned, w') ∧ w'.ents = w.ents ∧ w'.counter = w.counter ∧
      Ok w' A' Q I ∧
      ∀ k x, look A' k x = if x = e then Listed cs k (look A k e) else look A k x := by
  induction cs generalizing w A with
  | nil =>
    refine ⟨w, A, rfl, rfl, rfl, h, ?_⟩
    intro k x
    split
    · rename_i hx; rw [hx]; rfl
    · rfl
  | cons c cs ih =>
    obtain ⟨j, c⟩ := c
    cases c with
    | none =>
      obtain ⟨w', A', h1, h2, h3, h4, h5⟩ := ih h he
      refine ⟨w', A', h1, h2, h3, h4, ?_⟩
      intro k x
      rw [h5]
      simp only [Listed]
    | some v =>
      obtain ⟨L, hL⟩ := h.stoOr (fl := fl) j
      have hown : ∀ r, (tabOr fl A j).rows e.idx = some r → r.gen = e.gen := by
        intro r hr
        have := alive_same (h.tabOr_owned (fl := fl) j _ r hr) he rfl
        rw [← this]
      obtain ⟨r, s', L', hi, hr, hs'⟩ := insert_tab hL (h.ent.valid he) hown v now
      have hput := h.put j hs' (insTab_owned (h.tabOr_owned (fl := fl) j) he hown v now)
      obtain ⟨w', A', h1, h2, h3, h4, h5⟩ := ih hput he
      refine ⟨w', A', ?_, h2, h3, h4, ?_⟩
      · unfold World.addAll
        simp only [hi, bind, Except.bind, hr, if_true]
        exact h1
      · intro k x
        rw [h5]
        simp only [Listed, look_setTab]
        by_cases hk : k = j
        · subst hk
          simp only [if_true]
          rw [lookup_insTab hown, lookup_insTab hown]
          simp only [if_true]
          split
          · rfl
          · rw [lookup_tabOr]
        · have hk' : ¬ j = k := fun h => hk h.symm
          simp only [if_neg hk, if_neg hk']

theorem Ok.addComponent {w : World V} {A : Nat → Option (Sto V)} {Q : List Nat} {I : List EId}
    (h : Ok w A Q I) {e : EId} (he : w.ents.isAlive e = true) (cs : List (Nat × Option V)) :
    ∃ w' A', w.addComponent fl e cs = .ok (.returned, w') ∧ w'.ents = w.ents ∧
      Ok w' A' Q I ∧
      ∀ k x, look A' k x = if x = e then Listed cs k (look A k e) else look A k x := by
  obtain ⟨w', A', h1, h2, _, h4, h5⟩ := h.tick.addAll (fl := fl) (e := e) he w.counter cs
  refine ⟨w', A', ?_, h2, h4, h5⟩
  unfold World.addComponent
  rw [if_pos he, h1]

theorem Ok.addEntity {w : World V} {A : Nat → Option (Sto V)} {Q : List Nat} {I : List EId}
    (h : Ok w A Q I) {e : EId} {ents : Entities} (hg : w.ents.generate = .ok (e, ents))
    (hcap : ents.data.length < EId.maxIndex) (cs : List (Nat × Option V)) :
    ∃ w' A' Q', w.addEntity fl cs = .ok (e, .returned, w') ∧ w'.ents = ents ∧
      Ok w' A' Q' (I ++ [e]) ∧ w.ents.isAlive e = false ∧
      (∀ x, w'.ents.isAlive x = true ↔ w.ents.isAlive x = true ∨ x = e) ∧
      ∀ k x, look A' k x = if x = e then Listed cs k none else look A k x := by
  obtain ⟨⟨Q', hE⟩, hal, hno⟩ := ent_generate h.ent hg hcap
  have h1 : Ok { w.tick with ents := ents } A Q' (I ++ [e]) :=
    h.tick.ents hE (fun k a i r ha hr => (hal _).2 (.inl (h.owned k a ha i r hr)))
  have hdead : w.ents.isAlive e = false := by
    cases hb : w.ents.isAlive e with
    | false => rfl
    | true => exact absurd rfl (hno e hb)
  obtain ⟨w', A', h2, h3, _, h4, h5⟩ := h1.addAll (fl := fl) (e := e) ((hal e).2 (.inr rfl)) w.counter cs
  refine ⟨w', A', Q', ?_, h3, h4, hdead, ?_, ?_⟩
  · unfold World.addEntity
    simp only [hg, bind, Except.bind, h2]
  · intro x; rw [h3]; exact hal x
  · intro k x
    rw [h5, h.look_dead k hdead]

/-! ## Loops over the storages -/

/-- A loop that only takes components away. -/
theorem Ok.mapShrink {w : World V} {A : Nat → Option (Sto V)} {Q : List Nat} {I : List EId} (h : Ok w A Q I)
    {f : Nat → SparseSet V → Res (SparseSet V)} {g : Nat → Sto V → Sto V}
    (hf : ∀ k s a L, AbsW s a L → A k = some a → lookupK w.stos k = some s →
      ∃ s' L', f k s = .ok s' ∧ AbsW s' (g k a) L')
    (hg : ∀ k a, Shrinks a (g k a)) :
    ∃ l, mapStos f w.stos = .ok l ∧
      Ok { w.tick with stos := l } (fun k => (A k).map (g k)) Q I := by
  obtain ⟨l, h1, h2, h3⟩ := h.mapAll hf
  refine ⟨l, h1, h.ent, h2, h3, ?_⟩
  intro k b hb
  cases hA : A k with
  | none => rw [hA] at hb; cases hb
  | some a => rw [hA] at hb; cases hb; exact (hg k a).owned (h.owned k a hA)

theorem Ok.strip {w : World V} {A : Nat → Option (Sto V)} {Q : List Nat} {I : List EId} (h : Ok w A Q I)
    {e : EId} (he : Valid e) :
    ∃ w' A', w.strip e = .ok w' ∧ w'.ents = w.ents ∧ w'.counter = w.counter + 1 ∧ Ok w' A' Q I ∧
      ∀ k x, look A' k x = if x.idx = e.idx ∧ x.gen ≤ e.gen then none else look A k x := by
  obtain ⟨l, h1, h2⟩ := h.mapShrink (f := fun _ => stoDelete e w.counter) (g := fun _ => delTab e w.counter)
    (fun k s a L ha _ _ => stoDelete_ok ha he w.counter) (fun k a => delTab_shrinks e w.counter a)
  refine ⟨{ w.tick with stos := l }, _, ?_, rfl, rfl, h2, ?_⟩
  · unfold World.strip
    simp only [h1, bind, Except.bind]
  · intro k x
    rw [look_map]
    unfold look
    cases A k with
    | none => simp
    | some a => exact lookup_delTab' a e w.counter x

theorem stoDeleteAll_ok (now : Nat) (es : List EId) : ∀ {s : SparseSet V} {a : Sto V} {L},
    AbsW s a L → (∀ e ∈ es, Valid e) →
    ∃ s' L', stoDeleteAll now es s = .ok s' ∧ AbsW s' (es.foldl (fun a e => delTab e now a) a) L' := by
  induction es with
  | nil => intro s a L h _; exact ⟨s, L, rfl, h⟩
  | cons e es ih =>
    intro s a L h hv
    obtain ⟨s1, L1, h1, h2⟩ := stoDelete_ok h (hv e List.mem_cons_self) now
    obtain ⟨s', L', h3, h4⟩ := ih h2 (fun e he => hv e (List.mem_cons_of_mem _ he))
    exact ⟨s', L', by simp only [stoDeleteAll, h1, bind, Except.bind]; exact h3, h4⟩

theorem foldDel_shrinks (now : Nat) (es : List EId) (a : Sto V) :
    Shrinks a (es.foldl (fun a e => delTab e now a) a) := by
  induction es generalizing a with
  | nil => intro i r h; exact ⟨r, h, rfl⟩
  | cons e es ih => exact (delTab_shrinks e now a).trans (ih _)

theorem lookup_foldDel (now : Nat) (es : List EId) (a : Sto V) (x : EId) :
    lookup (es.foldl (fun a e => delTab e now a) a).rows x =
      if ∃ e ∈ es, x.idx = e.idx ∧ x.gen ≤ e.gen then none else lookup a.rows x := by
  induction es generalizing a with
  | nil => simp
  | cons e es ih =>
    rw [List.foldl_cons, ih, lookup_delTab']
    by_cases h1 : ∃ e ∈ es, x.idx = e.idx ∧ x.gen ≤ e.gen
    · rw [if_pos h1, if_pos]
      obtain ⟨e', h2, h3⟩ := h1
      exact ⟨e', List.mem_cons_of_mem _ h2, h3⟩
    · rw [if_neg h1]
      by_cases h2 : x.idx = e.idx ∧ x.gen ≤ e.gen
      · rw [if_pos h2, if_pos ⟨e, List.mem_cons_self, h2⟩]
      · rw [if_neg h2, if_neg]
        rintro ⟨e', h3, h4⟩
        rcases List.mem_cons.1 h3 with rfl | h3
        · exact h2 h4
        · exact h1 ⟨e', h3, h4⟩

theorem Ok.bulkStrip {w : World V} {A : Nat → Option (Sto V)} {Q : List Nat} {I : List EId} (h : Ok w A Q I)
    {es : List EId} (he : ∀ e ∈ es, Valid e) :
    ∃ w' A', w.bulkStrip es = .ok w' ∧ w'.ents = w.ents ∧ Ok w' A' Q I ∧
      ∀ k x, look A' k x = if ∃ e ∈ es, x.idx = e.idx ∧ x.gen ≤ e.gen then none else look A k x := by
  obtain ⟨l, h1, h2⟩ := h.mapShrink (f := fun _ => stoDeleteAll w.counter es)
    (g := fun _ a => es.foldl (fun a e => delTab e w.counter a) a)
    (fun k s a L ha _ _ => stoDeleteAll_ok w.counter es ha he) (fun k a => foldDel_shrinks w.counter es a)
  refine ⟨{ w.tick with stos := l }, _, ?_, rfl, h2, ?_⟩
  · unfold World.bulkStrip
    simp only [h1, bind, Except.bind]
  · intro k x
    rw [look_map]
    unfold look
    cases A k with
    | none => simp
    | some a => exact lookup_foldDel w.counter es a x

theorem Ok.retainStorageById {w : World V} {A : Nat → Option (Sto V)} {Q : List Nat} {I : List EId}
    (h : Ok w A Q I) {e : EId} (he : Valid e) (keep : List Nat) :
    ∃ w' A', w.retainStorageById e keep = .ok w' ∧ w'.ents = w.ents ∧ Ok w' A' Q I ∧
      ∀ k x, look A' k x =
        if k ∉ keep ∧ x.idx = e.idx ∧ x.gen ≤ e.gen then none else look A k x := by
  obtain ⟨l, h1, h2⟩ := h.mapShrink
    (f := fun k s => if keep.contains k then .ok s else stoDelete e w.counter s)
    (g := fun k a => if keep.contains k then a else delTab e w.counter a)
    (by
      intro k s a L ha _ _
      split
      · exact ⟨s, L, rfl, ha⟩
      · exact stoDelete_ok ha he w.counter)
    (by
      intro k a
      split
      · intro i r hr; exact ⟨r, hr, rfl⟩
      · exact delTab_shrinks e w.counter a)
  refine ⟨{ w.tick with stos := l }, _, ?_, rfl, h2, ?_⟩
  · unfold World.retainStorageById
    simp only [h1, bind, Except.bind]
  · intro k x
    rw [look_map]
    unfold look
    cases A k with
    | none => simp
    | some a =>
      simp only [Option.bind]
      by_cases hk : k ∈ keep
      · simp [hk]
      · simp only [List.contains_iff_mem, hk, if_false, not_false_eq_true, true_and]
        exact lookup_delTab' a e w.counter x

theorem stoClear_ok {s : SparseSet V} {a : Sto V} {L} (h : AbsW s a L) (now : Nat) :
    ∃ s' L', s.clear now = .ok s' ∧
      AbsW s' (StoSpec.step a (.cleared now (s.dense.zip s.data))) L' := by
  obtain ⟨sp', h1, _⟩ := SparseSet.clear_ok (s := s) h.ok now
  rw [← h.shape] at h1
  obtain ⟨L', hL'⟩ := h.call (.clear h1) (fun _ _ _ h => by cases h)
  exact ⟨_, L', h1, hL'⟩

/-- The table after a clear, up to its logs. -/
def clearedTab (a : Sto V) (now : Nat) (rows : List (EId × V)) : Sto V := StoSpec.step a (.cleared now rows)

theorem Ok.clear {w : World V} {A : Nat → Option (Sto V)} {Q : List Nat} {I : List EId} (h : Ok w A Q I)
    (hne : ∀ e ∈ w.ents.data, e.gen < 65533) :
    ∃ w' A' Q', w.clear = .ok w' ∧ Ok w' A' Q' I ∧ (∀ x, w'.ents.isAlive x = false) ∧
      ∀ k x, look A' k x = none := by
  obtain ⟨s', Q', hs, hE, hal⟩ := ent_clear h.ent hne
  obtain ⟨l, h1, h2, h3⟩ := h.mapAll (f := fun _ s => s.clear w.counter)
    (g := fun k a => clearedTab a w.counter (match lookupK w.stos k with
      | some s => s.dense.zip s.data
      | none => [])) (by
    intro k s a L ha _ hl
    rw [hl]
    exact stoClear_ok ha w.counter)
  refine ⟨{ w.tick with ents := s', stos := l }, _, Q', ?_, ⟨hE, h2, h3, ?_⟩, hal, ?_⟩
  · unfold World.clear
    simp only [hs, h1, bind, Except.bind]
  · intro k b hb i r hr
    cases hA : A k with
    | none => rw [hA] at hb; cases hb
    | some a => rw [hA] at hb; cases hb; cases hr
  · intro k x
    rw [look_map]
    cases A k <;> rfl

/-! ## Deleting entities -/

theorem Ok.deleteEntity {w : World V} {A : Nat → Option (Sto V)} {Q : List Nat} {I : List EId}
    (h : Ok w A Q I) {e : EId} (he : Valid e) :
    ∃ w' A' Q', w.deleteEntity e = .ok (w.ents.isAlive e, w') ∧ Ok w' A' Q' I ∧
      (∀ x, x ≠ e → w'.ents.isAlive x = w.ents.isAlive x) ∧
      (e.gen < 65533 → w'.ents.isAlive e = false) ∧
      (w.ents.isAlive e = false → w' = w) ∧
      ∀ k x, look A' k x = if x = e then none else look A k x := by
  obtain ⟨s', Q', h1, h2, h3, h4, h5, h6⟩ := ent_delete h.ent e
  cases ha : w.ents.isAlive e with
  | false =>
    have := h5 ha
    subst this
    refine ⟨w, A, Q, ?_, h, fun _ _ => rfl, fun _ => ha, fun _ => rfl, ?_⟩
    · unfold World.deleteEntity
      rw [ha] at h1
      simp only [h1, bind, Except.bind, Bool.false_eq_true, if_false]
    · intro k x
      split
      · rename_i hx; rw [hx, h.look_dead k ha]
      · rfl
  | true =>
    obtain ⟨l, h7, h8⟩ := h.mapShrink (f := fun _ => stoDelete e w.counter) (g := fun _ => delTab e w.counter)
      (fun k s a L ha _ _ => stoDelete_ok ha he w.counter) (fun k a => delTab_shrinks e w.counter a)
    have hlk : ∀ k x, look (fun k => (A k).map (delTab e w.counter)) k x =
        if x = e then none else look A k x := by
      intro k x
      rw [look_map]
      unfold look
      cases hA : A k with
      | none => simp
      | some a => exact lookup_delTab (fun r hr => h.rowAt hA ha hr) w.counter x
    refine ⟨{ w.tick with ents := s', stos := l }, _, Q', ?_, ?_, h3, h4, (fun h => by cases h), hlk⟩
    · unfold World.deleteEntity World.strip
      rw [ha] at h1
      simp only [h1, bind, Except.bind, if_true, h7]
      rfl
    · refine h8.ents h2 ?_
      intro k b i r hb hr
      have hold := h8.owned k b hb i r hr
      by_cases hx : (⟨i, r.gen⟩ : EId) = e
      · exfalso
        have := hlk k ⟨i, r.gen⟩
        rw [if_pos hx] at this
        have h9 : look (fun k => (A k).map (delTab e w.counter)) k ⟨i, r.gen⟩ = some r.val := by
          show ((A k).map (delTab e w.counter)).bind _ = _
          rw [hb]
          simp [lookup, hr]
        rw [h9] at this
        cases this
      · rw [h3 _ hx]; exact hold

theorem Ok.deleteEntities {w : World V} {A : Nat → Option (Sto V)} {Q : List Nat} {I : List EId}
    (h : Ok w A Q I) {es : List EId} (he : ∀ e ∈ es, Valid e) :
    ∃ w' A' Q', deleteEntities es w = .ok w' ∧ Ok w' A' Q' I ∧
      (∀ x, x ∉ es → w'.ents.isAlive x = w.ents.isAlive x) ∧
      (∀ x ∈ es, x.gen < 65533 → w'.ents.isAlive x = false) ∧
      ∀ k x, look A' k x = if x ∈ es then none else look A k x := by
  induction es generalizing w A Q with
  | nil => exact ⟨w, A, Q, rfl, h, fun _ _ => rfl, (fun x hx => by cases hx), fun k x => by simp⟩
  | cons e es ih =>
    obtain ⟨w1, A1, Q1, h1, h2, h3, h4, h5, h6⟩ := h.deleteEntity (he e List.mem_cons_self)
    obtain ⟨w', A', Q', g1, g2, g3, g4, g5⟩ := ih h2 (fun e he' => he e (List.mem_cons_of_mem _ he'))
    refine ⟨w', A', Q', ?_, g2, ?_, ?_, ?_⟩
    · simp only [World.deleteEntities, h1, bind, Except.bind]; exact g1
    · intro x hx
      rw [g3 x (fun h => hx (List.mem_cons_of_mem _ h)), h3 x (fun h => hx (h ▸ List.mem_cons_self))]
    · intro x hx hg
      by_cases hm : x ∈ es
      · exact g4 x hm hg
      · rw [g3 x hm]
        rcases List.mem_cons.1 hx with rfl | hx
        · exact h4 hg
        · exact absurd hx hm
    · intro k x
      rw [g5, h6]
      by_cases hm : x ∈ es
      · rw [if_pos hm, if_pos (List.mem_cons_of_mem _ hm)]
      · rw [if_neg hm]
        by_cases hx : x = e
        · rw [if_pos hx, if_pos (hx ▸ List.mem_cons_self)]
        · rw [if_neg hx, if_neg]
          intro h
          rcases List.mem_cons.1 h with h | h
          · exact hx h
          · exact hm h

/-- The ids of a storage are those that have a component. -/
theorem mem_dense {s : SparseSet V} {a : Sto V} {L} (h : AbsW s a L) (e : EId) :
    e ∈ s.dense ↔ lookup a.rows e ≠ none := by
  have hd : s.dense = L.map (·.id) := congrArg SparseSet.dense h.shape
  rw [hd, List.mem_map]
  constructor
  · rintro ⟨c, hc, rfl⟩
    unfold lookup
    rw [h.rows, (SparseSet.cellAt_some h.ok).2 ⟨hc, rfl⟩]
    have := h.clean trivial c hc
    simp [SparseSet.Cell.toRow, this]
  · intro hl
    cases hv : lookup a.rows e with
    | none => exact absurd hv hl
    | some v =>
      obtain ⟨r, h1, h2⟩ := lookup_some hv
      rw [h.rows] at h1
      cases hc : SparseSet.cellAt L e.idx with
      | none => rw [hc] at h1; cases h1
      | some c =>
        rw [hc] at h1
        cases h1
        obtain ⟨h3, h4⟩ := (SparseSet.cellAt_some h.ok).1 hc
        refine ⟨c, h3, ?_⟩
        have h5 := h.clean trivial c h3
        have h6 : c.gen = e.gen := h2
        obtain ⟨⟨ci, cg⟩, _, _, _, _⟩ := c
        cases e
        simp_all

theorem Ok.deleteAnyCollect {w : World V} {A : Nat → Option (Sto V)} {Q : List Nat} {I : List EId}
    (h : Ok w A Q I) (now : Nat) (ks : List Nat) :
    ∃ ids w' A', deleteAnyCollect now ks w = .ok (ids, w') ∧ w'.ents = w.ents ∧ w'.counter = w.counter ∧
      Ok w' A' Q I ∧
      (∀ e, e ∈ ids ↔ ∃ k ∈ ks, look A k e ≠ none) ∧
      ∀ k x, look A' k x = if k ∈ ks then none else look A k x := by
  induction ks generalizing w A with
  | nil => exact ⟨[], w, A, rfl, rfl, rfl, h, fun e => by simp, fun k x => by simp⟩
  | cons j ks ih =>
    have hj := h.sto j
    generalize hl : lookupK w.stos j = so at hj
    generalize hA : A j = ao at hj
    cases hj with
    | none =>
      obtain ⟨ids, w', A', h1, h2, h3, h4, h5, h6⟩ := ih h
      have hn : ∀ x, look A j x = none := by intro x; unfold look; rw [hA]; rfl
      refine ⟨ids, w', A', ?_, h2, h3, h4, ?_, ?_⟩
      · simp only [World.deleteAnyCollect, hl]; exact h1
      · intro e
        rw [h5]
        constructor
        · rintro ⟨k, hk, hk'⟩; exact ⟨k, List.mem_cons_of_mem _ hk, hk'⟩
        · rintro ⟨k, hk, hk'⟩
          rcases List.mem_cons.1 hk with rfl | hk
          · exact absurd (hn e) hk'
          · exact ⟨k, hk, hk'⟩
      · intro k x
        rw [h6]
        by_cases hk : k = j
        · subst hk; rw [hn]; simp
        · simp [hk]
    | @some s a L ha =>
      obtain ⟨s', L', hc, hs'⟩ := stoClear_ok ha now
      have hput := h.put j hs' (fun i r hr => by cases hr)
      obtain ⟨ids, w', A', h1, h2, h3, h4, h5, h6⟩ := ih hput
      have hlk : ∀ k x, look (setTab A j (StoSpec.step a (.cleared now (s.dense.zip s.data)))) k x =
          if k = j then none else look A k x := by
        intro k x
        rw [look_setTab]
        rfl
      have hlj : ∀ x, look A j x = lookup a.rows x := by intro x; unfold look; rw [hA]; rfl
      refine ⟨s.dense ++ ids, w', A', ?_, h2, h3, h4, ?_, ?_⟩
      · simp only [World.deleteAnyCollect, hl, hc, bind, Except.bind, h1]
      · intro e
        rw [List.mem_append, mem_dense ha, h5, ← hlj]
        constructor
        · rintro (h | ⟨k, hk, hk'⟩)
          · exact ⟨j, List.mem_cons_self, h⟩
          · rw [hlk] at hk'
            split at hk'
            · exact absurd rfl hk'
            · exact ⟨k, List.mem_cons_of_mem _ hk, hk'⟩
        · rintro ⟨k, hk, hk'⟩
          by_cases hkj : k = j
          · subst hkj; exact .inl hk'
          · rcases List.mem_cons.1 hk with hk | hk
            · exact absurd hk hkj
            · exact .inr ⟨k, hk, by rw [hlk, if_neg hkj]; exact hk'⟩
      · intro k x
        rw [h6, hlk]
        by_cases hk : k = j
        · subst hk; simp
        · simp [hk]

theorem Ok.deleteAny {w : World V} {A : Nat → Option (Sto V)} {Q : List Nat} {I : List EId}
    (h : Ok w A Q I) (ks : List Nat) {order : List EId → List EId}
    (ho : ∀ (ids : List EId) (e : EId), e ∈ order ids ↔ e ∈ ids) :
    ∃ w' A' Q', w.deleteAny ks order = .ok w' ∧ Ok w' A' Q' I ∧
      (∀ x, (∀ k ∈ ks, look A k x = none) → w'.ents.isAlive x = w.ents.isAlive x) ∧
      (∀ x, (∃ k ∈ ks, look A k x ≠ none) → x.gen < 65533 → w'.ents.isAlive x = false) ∧
      ∀ k x, look A' k x = if ∃ j ∈ ks, look A j x ≠ none then none else look A k x := by
  obtain ⟨ids, w1, A1, h1, h2, h3, h4, h5, h6⟩ := h.tick.deleteAnyCollect w.counter ks
  have hval : ∀ e ∈ order ids, Valid e := by
    intro e he
    obtain ⟨k, _, hk⟩ := (h5 e).1 ((ho ids e).1 he)
    cases hv : look A k e with
    | none => exact absurd hv hk
    | some v => exact h.ent.valid (h.look_alive hv)
  obtain ⟨w', A', Q', g1, g2, g3, g4, g5⟩ := h4.deleteEntities hval
  have hiff : ∀ x, x ∈ order ids ↔ ∃ k ∈ ks, look A k x ≠ none := fun x => (ho ids x).trans (h5 x)
  refine ⟨w', A', Q', ?_, g2, ?_, ?_, ?_⟩
  · simp only [World.deleteAny, h1, bind, Except.bind]; exact g1
  · intro x hx
    rw [g3 x (fun hm => ?_), h2]
    · rfl
    · obtain ⟨k, hk, hk'⟩ := (hiff x).1 hm
      exact hk' (hx k hk)
  · intro x hx hg
    exact g4 x ((hiff x).2 hx) hg
  · intro k x
    rw [g5, h6]
    by_cases hm : ∃ j ∈ ks, look A j x ≠ none
    · rw [if_pos ((hiff x).2 hm), if_pos hm]
    · rw [if_neg (fun h => hm ((hiff x).1 h)), if_neg hm]
      split
      · rename_i hk
        cases hv : look A k x with
        | none => rfl
        | some v => exact absurd ⟨k, hk, by rw [hv]; simp⟩ hm
      · rfl

/-! ## Removing components -/

theorem Ok.removeAll {w : World V} {A : Nat → Option (Sto V)} {Q : List Nat} {I : List EId}
    (h : Ok w A Q I) {e : EId} (he : Valid e) (now : Nat) (ks : List Nat) :
    ∃ rs w' A', removeAll fl e now ks w = .ok (rs, w') ∧ w'.ents = w.ents ∧ Ok w' A' Q I ∧
      (ks.Nodup → rs = ks.map fun k => look A k e) ∧
      ∀ k x, look A' k x = if k ∈ ks ∧ x.idx = e.idx ∧ x.gen ≤ e.gen then none else look A k x := by
  induction ks generalizing w A with
  | nil => exact ⟨[], w, A, rfl, rfl, h, fun _ => rfl, fun k x => by simp⟩
  | cons j ks ih =>
    obtain ⟨L, hL⟩ := h.stoOr (fl := fl) j
    obtain ⟨s', L', hr, hs'⟩ := dynRemove_tab hL he now
    have hput := h.put j hs' ((remTab_shrinks e now _).owned (h.tabOr_owned (fl := fl) j))
    obtain ⟨rs, w', A', h1, h2, h3, h4, h5⟩ := ih hput
    have hlk : ∀ k x, look (setTab A j (remTab e now (tabOr fl A j))) k x =
        if k = j ∧ x.idx = e.idx ∧ x.gen ≤ e.gen then none else look A k x := by
      intro k x
      rw [look_setTab]
      by_cases hk : k = j
      · subst hk
        simp only [if_true, true_and]
        show lookup (delTab e now (tabOr fl A k)).rows x = _
        rw [lookup_delTab', lookup_tabOr]
      · simp [hk]
    refine ⟨lookup (tabOr fl A j).rows e :: rs, w', A', ?_, h2, h3, ?_, ?_⟩
    · simp only [World.removeAll, hr, h1, bind, Except.bind]
    · intro hn
      rw [List.nodup_cons] at hn
      rw [h4 hn.2, lookup_tabOr, List.map_cons]
      congr 1
      apply List.map_congr_left
      intro k hk
      rw [hlk, if_neg]
      rintro ⟨rfl, _⟩
      exact hn.1 hk
    · intro k x
      rw [h5, hlk]
      by_cases h6 : k ∈ ks ∧ x.idx = e.idx ∧ x.gen ≤ e.gen
      · rw [if_pos h6, if_pos ⟨List.mem_cons_of_mem _ h6.1, h6.2⟩]
      · rw [if_neg h6]
        by_cases h7 : k = j ∧ x.idx = e.idx ∧ x.gen ≤ e.gen
        · rw [if_pos h7, if_pos ⟨h7.1 ▸ List.mem_cons_self, h7.2⟩]
        · rw [if_neg h7, if_neg]
          rintro ⟨h8, h9⟩
          rcases List.mem_cons.1 h8 with h8 | h8
          · exact h7 ⟨h8, h9⟩
          · exact h6 ⟨h8, h9⟩

/-- The types a tuple deletion gets to: up to the first one that the entity has. -/
def upTo (p : Nat → Bool) : List Nat → List Nat
  | [] => []
  | k :: ks => if p k then [k] else k :: upTo p ks

theorem upTo_congr {p q : Nat → Bool} {ks : List Nat} (h : ∀ k ∈ ks, p k = q k) : upTo p ks = upTo q ks := by
  induction ks with
  | nil => rfl
  | cons k ks ih =>
    simp only [upTo, h k List.mem_cons_self, ih (fun k hk => h k (List.mem_cons_of_mem _ hk))]

theorem Ok.deleteFirst {w : World V} {A : Nat → Option (Sto V)} {Q : List Nat} {I : List EId}
    (h : Ok w A Q I) {e : EId} (he : Valid e) (now : Nat) (ks : List Nat) :
    ∃ w' A', deleteFirst fl e now ks w = .ok (ks.any fun k => (look A k e).isSome, w') ∧
      w'.ents = w.ents ∧ Ok w' A' Q I ∧
      ∀ k x, look A' k x =
        if k ∈ upTo (fun k => (look A k e).isSome) ks ∧ x.idx = e.idx ∧ x.gen ≤ e.gen then none
        else look A k x := by
  induction ks generalizing w A with
  | nil => exact ⟨w, A, rfl, rfl, h, fun k x => by simp [upTo]⟩
  | cons j ks ih =>
    obtain ⟨L, hL⟩ := h.stoOr (fl := fl) j
    obtain ⟨s', L', hr, hs'⟩ := dynDelete_tab hL he now
    rw [lookup_tabOr] at hr
    have hput := h.put j hs' ((delTab_shrinks e now _).owned (h.tabOr_owned (fl := fl) j))
    have hlk : ∀ k x, look (setTab A j (delTab e now (tabOr fl A j))) k x =
        if k = j ∧ x.idx = e.idx ∧ x.gen ≤ e.gen then none else look A k x := by
      intro k x
      rw [look_setTab]
      by_cases hk : k = j
      · subst hk
        simp only [if_true, true_and]
        rw [lookup_delTab', lookup_tabOr]
      · simp [hk]
    cases hb : (look A j e).isSome with
    | true =>
      rw [hb] at hr
      refine ⟨w.put j s', _, ?_, rfl, hput, ?_⟩
      · simp only [World.deleteFirst, hr, bind, Except.bind, if_true, List.any_cons, hb, Bool.true_or]
      · intro k x
        rw [hlk]
        simp [upTo, hb]
    | false =>
      rw [hb] at hr
      obtain ⟨w', A', h1, h2, h3, h4⟩ := ih hput
      have hsame : ∀ k, (look (setTab A j (delTab e now (tabOr fl A j))) k e).isSome = (look A k e).isSome := by
        intro k
        rw [hlk]
        split
        · rename_i hc; rw [hc.1, hb]; rfl
        · rfl
      refine ⟨w', A', ?_, h2, h3, ?_⟩
      · simp only [World.deleteFirst, hr, bind, Except.bind, Bool.false_eq_true, if_false, List.any_cons, hb,
          Bool.false_or]
        rw [h1]
        simp only [hsame]
      · intro k x
        rw [h4, hlk]
        simp only [hsame, upTo, hb, Bool.false_eq_true, if_false]
        by_cases h6 : k ∈ upTo (fun k => (look A k e).isSome) ks ∧ x.idx = e.idx ∧ x.gen ≤ e.gen
        · rw [if_pos h6, if_pos ⟨List.mem_cons_of_mem _ h6.1, h6.2⟩]
        · rw [if_neg h6]
          by_cases h7 : k = j ∧ x.idx = e.idx ∧ x.gen ≤ e.gen
          · rw [if_pos h7, if_pos ⟨h7.1 ▸ List.mem_cons_self, h7.2⟩]
          · rw [if_neg h7, if_neg]
            rintro ⟨h8, h9⟩
            rcases List.mem_cons.1 h8 with h8 | h8
            · exact h7 ⟨h8, h9⟩
            · exact h6 ⟨h8, h9⟩

end Verif.World
