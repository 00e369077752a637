import Verif.Lemmas.Unwind
import Verif.Lemmas.WorldReach
import Verif.Spec.WorldUnwind

/-! Worlds in which calls were cut short: the invariant, and the effect of each call. -/
namespace Verif.World
open StoSpec (Sto Row lookup setRow Valid removeRow insertRow)
open Entities (Inv Bounded genAt Effect)
open SparseSet (Abs)
open WSpec (Listed)
variable {V : Type} {fl : Flags}

/-! ## The invariant -/

/-- A storage of the map against its table. -/
inductive StoF : Option (SparseSet V) → Option (Sto V) → Prop where
  | none : StoF none none
  | some {s a L} : Abs False s a L → StoF (some s) (some a)

/-- Every row belongs to an id that was handed out. -/
def Given (I : List EId) (a : Sto V) : Prop := ∀ i r, a.rows i = some r → ⟨i, r.gen⟩ ∈ I

/-- `A` are the tables of the storages, `I` the ids handed out. -/
structure Sound (w : World V) (A : Nat → Option (Sto V)) (Q : List Nat) (I : List EId) : Prop where
  ent : EntOK w.ents Q I
  nodup : (w.stos.map Prod.fst).Nodup
  sto : ∀ k, StoF (lookupK w.stos k) (A k)
  given : ∀ k a, A k = some a → Given I a
  alive : ∀ e, w.ents.isAlive e = true → e ∈ I

theorem Shrinks.given {I : List EId} {a b : Sto V} (h : Shrinks a b) (ho : Given I a) : Given I b := by
  intro i r hr
  obtain ⟨r', h1, h2⟩ := h i r hr
  rw [← h2]; exact ho i r' h1

theorem Shrinks.refl (a : Sto V) : Shrinks a a := fun _ r h => ⟨r, h, rfl⟩

/-- Ids handed out are proper ids. -/
theorem EntOK.valid_issued {s : Entities} {Q : List Nat} {I : List EId} (h : EntOK s Q I) {e : EId}
    (he : e ∈ I) : Valid e := by
  obtain ⟨g, h1, h2, _⟩ := h.bnd e he
  have h3 := h.gens _ _ h1
  have h4 := Entities.genAt_lt h1
  have h5 := h.inv.cap
  have h6 : EId.maxIndex < EId.INDEX_MASK := by decide
  exact ⟨by omega, by omega⟩

namespace Sound
variable {w : World V} {A : Nat → Option (Sto V)} {Q : List Nat} {I : List EId}

theorem get (h : Sound w A Q I) (k : Nat) {e : EId} (he : e.gen < 65535) :
    w.get k e = .ok (look A k e) := by
  have := h.sto k
  unfold World.get look
  generalize lookupK w.stos k = so at this
  generalize A k = ao at this
  cases this with
  | none => rfl
  | some ha => exact ha.get he

theorem stoOr (h : Sound w A Q I) (k : Nat) : ∃ L, Abs False (w.stoOr fl k) (tabOr fl A k) L := by
  have := h.sto k
  unfold World.stoOr tabOr
  generalize lookupK w.stos k = so at this
  generalize A k = ao at this
  cases this with
  | none =>
    have hn := SparseSet.abs_new (T := V) (fl k).1 (fl k).2.1 (fl k).2.2.1 (fl k).2.2.2
    exact ⟨[], { hn with clean := (fun h => h.elim), deleted := (fun h => h.elim), remCalls := (fun h => h.elim) }⟩
  | some ha => exact ⟨_, ha⟩

theorem tabOr_given (h : Sound w A Q I) (k : Nat) : Given I (tabOr fl A k) := by
  unfold tabOr
  cases ha : A k with
  | none => intro i r hr; cases hr
  | some a => exact h.given k a ha

theorem put (h : Sound w A Q I) (k : Nat) {s : SparseSet V} {a : Sto V} {L} (hs : Abs False s a L)
    (ho : Given I a) : Sound (w.put k s) (setTab A k a) Q I where
  ent := h.ent
  nodup := setK_nodup h.nodup k s
  sto := by
    intro j
    show StoF (lookupK (setK w.stos k s) j) (if j = k then some a else A j)
    rw [lookupK_setK]
    split
    · exact .some hs
    · exact h.sto j
  given := by
    intro j b hb
    unfold setTab at hb
    split at hb
    · cases hb; exact ho
    · exact h.given j b hb
  alive := h.alive

theorem tick (h : Sound w A Q I) : Sound w.tick A Q I := ⟨h.ent, h.nodup, h.sto, h.given, h.alive⟩

theorem counter (h : Sound w A Q I) (c : Nat) : Sound { w with counter := c } A Q I :=
  ⟨h.ent, h.nodup, h.sto, h.given, h.alive⟩

/-- Changing the entities only. -/
theorem ents (h : Sound w A Q I) {s : Entities} {Q' : List Nat} {I' : List EId} (hs : EntOK s Q' I')
    (hI : ∀ e ∈ I, e ∈ I') (hal : ∀ e, s.isAlive e = true → e ∈ I') :
    Sound { w with ents := s } A Q' I' :=
  ⟨hs, h.nodup, h.sto, fun k a ha i r hr => hI _ (h.given k a ha i r hr), hal⟩

/-- Rows are not newer than the alive entity at their index. -/
theorem row_le (h : Sound w A Q I) (k : Nat) {e : EId} (he : w.ents.isAlive e = true) {r : Row V}
    (hr : (tabOr fl A k).rows e.idx = some r) : r.gen ≤ e.gen :=
  h.ent.issued_le (h.tabOr_given (fl := fl) k _ r hr) he rfl

/-- Nothing is found under an id that was not handed out. -/
theorem look_fresh (h : Sound w A Q I) (k : Nat) {e : EId} (he : e ∉ I) : look A k e = none := by
  unfold look
  cases hA : A k with
  | none => rfl
  | some a =>
    cases hl : (some a).bind (fun a => lookup a.rows e) with
    | none => rfl
    | some v =>
      obtain ⟨r, h1, h2⟩ := lookup_some (rows := a.rows) (e := e) (v := v) hl
      have := h.given k a hA _ r h1
      rw [h2] at this
      exact absurd this he

end Sound

/-! ## Calls on one storage -/

/-- Whoever panicked, the rows are those of the ordinary deletion. -/
theorem dynDeleteU_tab {s : SparseSet V} {a : Sto V} {L} (h : Abs False s a L) {e : EId} (he : Valid e)
    (now : Nat) (hp dp : Bool) : ∃ out s' b L', s.dynDeleteU e now hp dp = .ok (out, s') ∧
      Abs False s' b L' ∧ b.rows = (delTab e now a).rows ∧
      (∀ r, out = .returned r → r = (lookup a.rows e).isSome) := by
  obtain ⟨r, sp', L', h1, _, _⟩ := SparseSet.actualRemove_ok (s := s) h.ok (.inl he.1)
  rw [← h.shape] at h1
  obtain ⟨⟨out, s', h2⟩, _⟩ := SparseSet.dynDeleteU_total (now := now) hp dp h1
  obtain ⟨r', s1, h3, h4⟩ := SparseSet.dynDeleteU_cases h2
  rcases h4 with ⟨ho, h4⟩ | ⟨ho, _, _, _, rfl⟩ | ⟨ho, _, h4⟩
  · obtain ⟨hb, L'', h5⟩ := SparseSet.abs_delete (Q := False) h he (h.get he.1) h4 (fun q => q)
    refine ⟨out, s', _, L'', h2, h5, rfl, ?_⟩
    intro r hr; rw [ho] at hr; cases hr; exact hb
  · obtain ⟨_, L'', h5⟩ := SparseSet.abs_silently h he h3
    refine ⟨out, s', _, L'', h2, h5, rfl, ?_⟩
    intro r hr; rw [ho] at hr; cases hr
  · obtain ⟨_, L'', h5⟩ := SparseSet.abs_delete (Q := False) h he (h.get he.1) h4 (fun q => q)
    refine ⟨out, s', _, L'', h2, h5, rfl, ?_⟩
    intro r hr; rw [ho] at hr; cases hr

theorem dynRemoveU_tab {s : SparseSet V} {a : Sto V} {L} (h : Abs False s a L) {e : EId} (he : Valid e)
    (now : Nat) (hp dp : Bool) : ∃ out s' b L', s.dynRemoveU e now hp dp = .ok (out, s') ∧
      Abs False s' b L' ∧ b.rows = (delTab e now a).rows ∧
      (∀ r, out = .returned r → r = lookup a.rows e) := by
  obtain ⟨r, sp', L', h1, _, _⟩ := SparseSet.actualRemove_ok (s := s) h.ok (.inl he.1)
  rw [← h.shape] at h1
  obtain ⟨_, out, s', h2⟩ := SparseSet.dynDeleteU_total (now := now) hp dp h1
  obtain ⟨r', s1, h3, h4⟩ := SparseSet.dynRemoveU_cases h2
  rcases h4 with ⟨ho, h4⟩ | ⟨ho, _, _, _, rfl⟩ | ⟨ho, _, _, rfl⟩
  · obtain ⟨hb, L'', h5⟩ := SparseSet.abs_remove (Q := False) h he h4 (fun q => q)
    refine ⟨out, s', _, L'', h2, h5, rfl, ?_⟩
    intro r hr; rw [ho] at hr; cases hr; exact hb
  · obtain ⟨_, L'', h5⟩ := SparseSet.abs_silently h he h3
    refine ⟨out, s', _, L'', h2, h5, rfl, ?_⟩
    intro r hr; rw [ho] at hr; cases hr
  · obtain ⟨_, L'', h5⟩ := SparseSet.abs_silently h he h3
    refine ⟨out, s', _, L'', h2, h5, rfl, ?_⟩
    intro r hr; rw [ho] at hr; cases hr

theorem shrinks_rows {a b c : Sto V} (h : Shrinks a c) (hb : b.rows = c.rows) : Shrinks a b := by
  intro i r hr
  rw [hb] at hr
  exact h i r hr

/-- Inserting for any proper id. -/
theorem insertU_tab {s : SparseSet V} {a : Sto V} {L} (h : Abs False s a L) {e : EId} (he : Valid e)
    (v : V) (now : Nat) (hp dp : Bool) : ∃ out s' b L', s.insertU e v now hp dp = .ok (out, s') ∧
      Abs False s' b L' ∧
      (∀ i r, b.rows i = some r → (∃ r', a.rows i = some r' ∧ r'.gen = r.gen) ∨ (i = e.idx ∧ r.gen = e.gen)) ∧
      (∀ x, (x.idx ≠ e.idx ∨ e.gen < x.gen) → lookup b.rows x = lookup a.rows x) ∧
      (∀ u, out = .unwound u → lookup b.rows e = lookup a.rows e ∧ (u = .hook ∨ u = .dtor)) ∧
      ((∀ r, a.rows e.idx = some r → r.gen ≤ e.gen) → ∀ r, out = .returned r →
        r ≠ .notInserted ∧ lookup b.rows e = some v) := by
  obtain ⟨r, hook, sp', L', h1, _, h3⟩ := SparseSet.insert_ok (s := s) h.ok he v now
  rw [← h.shape] at h1
  obtain ⟨out, s', h2⟩ := SparseSet.insertU_total hp dp h1
  cases out with
  | returned r' =>
    have h4 := SparseSet.insertU_returned h2
    rw [h4] at h1
    injection h1 with h1
    injection h1 with h1 _
    subst h1
    obtain ⟨L'', h5⟩ := SparseSet.abs_insert (Q := False) h he h4 (fun q => q.elim)
    refine ⟨_, s', _, L'', h2, h5, ?_, ?_, ?_, ?_⟩
    · intro i q hq
      simp only [StoSpec.step] at hq
      unfold setRow at hq
      split at hq
      · rename_i hi
        subst hi
        unfold insertRow at hq
        cases hr : a.rows e.idx with
        | none => rw [hr] at hq; cases hq; exact .inr ⟨rfl, rfl⟩
        | some r0 =>
          rw [hr] at hq
          simp only at hq
          split at hq
          · cases hq; exact .inl ⟨r0, rfl, rfl⟩
          · split at hq
            · cases hq; exact .inr ⟨rfl, rfl⟩
            · cases hq; exact .inl ⟨_, rfl, rfl⟩
      · exact .inl ⟨q, hq, rfl⟩
    · intro x hx
      simp only [StoSpec.step]
      unfold lookup setRow
      by_cases hi : x.idx = e.idx
      · have hx := hx.resolve_left (fun h => h hi)
        rw [if_pos hi, hi]
        unfold insertRow
        cases hr : a.rows e.idx with
        | none => simp; omega
        | some r0 =>
          have hne : r0.gen ≤ e.gen → ¬ r0.gen = x.gen := fun h h' => by omega
          have hne' : ¬ e.gen = x.gen := fun h' => by omega
          by_cases h1 : r0.gen = e.gen
          · simp [h1, hne']
          · by_cases h2 : r0.gen < e.gen
            · simp [h1, h2, hne', hne (Nat.le_of_lt h2)]
            · simp [h1, h2]
      · rw [if_neg hi]
    · intro u hu; cases hu
    · intro hle r hr
      cases hr
      constructor
      · rintro rfl
        cases h3 with
        | @older c hc hce hlt =>
          have : a.rows e.idx = some c.toRow := by
            rw [h.rows, ← hce, (SparseSet.cellAt_some h.ok).2 ⟨hc, rfl⟩]; rfl
          have := hle _ this
          have h9 : c.toRow.gen = c.gen := rfl
          rw [h9] at this
          omega
      · simp only [StoSpec.step]
        unfold lookup setRow
        rw [if_pos rfl]
        unfold insertRow
        cases hr : a.rows e.idx with
        | none => simp
        | some r0 =>
          have := hle _ hr
          simp only
          by_cases hg : r0.gen = e.gen
          · rw [if_pos hg]; simp [hg]
          · rw [if_neg hg, if_pos (by omega)]; simp
  | unwound u =>
    obtain ⟨h4, L'', h5⟩ := SparseSet.abs_insertU' h he h2
    rcases h4 with rfl | ⟨rfl, r0, h6, h7⟩
    · refine ⟨_, s', _, L'', h2, h5, fun i r hr => .inl ⟨r, hr, rfl⟩, fun x _ => rfl, ?_, ?_⟩
      · intro u hu; cases hu; exact ⟨rfl, .inl rfl⟩
      · intro _ r hr; cases hr
    · refine ⟨_, s', _, L'', h2, h5, ?_, ?_, ?_, ?_⟩
      · intro i q hq
        have hq' : setRow a.rows e.idx ((a.rows e.idx).map fun r => { r with val := v }) i = some q := hq
        clear hq
        unfold setRow at hq'
        split at hq'
        · rename_i hi
          subst hi
          rw [h6] at hq'
          cases hq'
          exact .inl ⟨r0, h6, rfl⟩
        · exact .inl ⟨q, hq', rfl⟩
      · intro x hx
        show lookup (setRow a.rows e.idx ((a.rows e.idx).map fun r => { r with val := v })) x = _
        unfold lookup setRow
        by_cases hi : x.idx = e.idx
        · have hx := hx.resolve_left (fun h => h hi)
          rw [if_pos hi, hi, h6]
          simp only [Option.map, Option.bind]
          rw [if_neg (by omega), if_neg (by omega)]
        · rw [if_neg hi]
      · intro u hu
        cases hu
        refine ⟨?_, .inr rfl⟩
        show lookup (setRow a.rows e.idx ((a.rows e.idx).map fun r => { r with val := v })) e = _
        unfold lookup setRow
        rw [if_pos rfl, h6]
        simp only [Option.map, Option.bind]
        rw [if_neg (by omega), if_neg (by omega)]
      · intro _ r hr; cases hr

theorem insertU_given {I : List EId} {a b : Sto V} {e : EId} (he : e ∈ I) (ho : Given I a)
    (h : ∀ i r, b.rows i = some r → (∃ r', a.rows i = some r' ∧ r'.gen = r.gen) ∨ (i = e.idx ∧ r.gen = e.gen)) :
    Given I b := by
  intro i r hr
  rcases h i r hr with ⟨r', h1, h2⟩ | ⟨h1, h2⟩
  · rw [← h2]; exact ho i r' h1
  · rw [h1, h2]; exact he

/-! ## Adding components -/

/-- The components of a list that were added when the call ended: a beginning of the list. -/
theorem Sound.addAllU {w : World V} {A : Nat → Option (Sto V)} {Q : List Nat} {I : List EId}
    (h : Sound w A Q I) {e : EId} (he : w.ents.isAlive e = true) (p : Panics) (now i : Nat)
    (cs : List (Nat × Option V)) :
    ∃ out w' A' pre post, addAllU fl p e now i cs w = .ok (out, w') ∧ w'.ents = w.ents ∧
      w'.counter = w.counter ∧ Sound w' A' Q I ∧ cs = pre ++ post ∧
      (out = .returned () ∧ post = [] ∨ ∃ u, out = .unwound u ∧ (u = .hook ∨ u = .dtor)) ∧
      (∀ k, look A' k e = Listed pre k (look A k e)) ∧
      (∀ k x, x.idx ≠ e.idx → look A' k x = look A k x) := by
  induction cs generalizing w A i with
  | nil => exact ⟨_, w, A, [], [], rfl, rfl, rfl, h, rfl, .inl ⟨rfl, rfl⟩, fun _ => rfl, fun _ _ _ => rfl⟩
  | cons c cs ih =>
    obtain ⟨j, c⟩ := c
    cases c with
    | none =>
      obtain ⟨out, w', A', pre, post, h1, h2, h3, h4, h5, h6, h7, h8⟩ := ih h he i
      exact ⟨out, w', A', (j, none) :: pre, post, h1, h2, h3, h4, by rw [h5]; rfl, h6, h7, h8⟩
    | some v =>
      obtain ⟨L, hL⟩ := h.stoOr (fl := fl) j
      obtain ⟨out, s', b, L', hi, hb, hg, hx, hu, hr⟩ :=
        insertU_tab hL (h.ent.valid he) v now (p i).1 (p i).2
      have hput := h.put j hb (insertU_given (h.alive e he) (h.tabOr_given (fl := fl) j) hg)
      have hothers : ∀ k x, x.idx ≠ e.idx → look (setTab A j b) k x = look A k x := by
        intro k x hxe
        rw [look_setTab]
        split
        · rename_i hk; rw [hx x (.inl hxe), lookup_tabOr, hk]
        · rfl
      cases out with
      | unwound u =>
        refine ⟨.unwound u, w.put j s', setTab A j b, [], (j, some v) :: cs, ?_, rfl, rfl, hput, rfl,
          .inr ⟨u, rfl, (hu u rfl).2⟩, ?_, hothers⟩
        · simp only [World.addAllU, hi, bind, Except.bind]
        · intro k
          rw [look_setTab]
          split
          · rename_i hk; rw [(hu u rfl).1, lookup_tabOr, hk]; rfl
          · rfl
      | returned r =>
        obtain ⟨hni, hv⟩ := hr (fun r hr => h.row_le (fl := fl) j he hr) r rfl
        have hthis : ∀ k, look (setTab A j b) k e = Listed [(j, some v)] k (look A k e) := by
          intro k
          rw [look_setTab]
          simp only [Listed]
          by_cases hk : k = j
          · rw [if_pos hk, if_pos hk.symm, hv]
          · rw [if_neg hk, if_neg (fun h => hk h.symm)]
        have hnext : ∃ out w' A' pre post, World.addAllU fl p e now (i + 1) cs (w.put j s') = .ok (out, w') ∧
            w'.ents = w.ents ∧ w'.counter = w.counter ∧ Sound w' A' Q I ∧ (j, some v) :: cs = pre ++ post ∧
            (out = .returned () ∧ post = [] ∨ ∃ u, out = .unwound u ∧ (u = .hook ∨ u = .dtor)) ∧
            (∀ k, look A' k e = Listed pre k (look A k e)) ∧
            (∀ k x, x.idx ≠ e.idx → look A' k x = look A k x) := by
          obtain ⟨out, w', A', pre, post, h1, h2, h3, h4, h5, h6, h7, h8⟩ := ih hput he (i + 1)
          refine ⟨out, w', A', (j, some v) :: pre, post, h1, h2, h3, h4, by rw [h5]; rfl, h6, ?_, ?_⟩
          · intro k
            rw [h7, hthis]
            simp only [Listed]
          · intro k x hxe
            rw [h8 k x hxe, hothers k x hxe]
        cases r with
        | notInserted => exact absurd rfl hni
        | componentOverride old =>
          by_cases hp : (p i).2 = true
          · refine ⟨.unwound .dtor, w.put j s', _, [(j, some v)], cs, ?_, rfl, rfl, hput, rfl,
              .inr ⟨_, rfl, .inr rfl⟩, hthis, hothers⟩
            simp only [World.addAllU, hi, bind, Except.bind]
            rw [if_pos hp]
          · obtain ⟨out, w', A', pre, post, h1, h2⟩ := hnext
            refine ⟨out, w', A', pre, post, ?_, h2⟩
            simp only [World.addAllU, hi, bind, Except.bind]
            rw [if_neg hp, h1]
        | inserted =>
          obtain ⟨out, w', A', pre, post, h1, h2⟩ := hnext
          refine ⟨out, w', A', pre, post, ?_, h2⟩
          simp only [World.addAllU, hi, bind, Except.bind]
          exact h1
        | otherComponentOverride =>
          obtain ⟨out, w', A', pre, post, h1, h2⟩ := hnext
          refine ⟨out, w', A', pre, post, ?_, h2⟩
          simp only [World.addAllU, hi, bind, Except.bind]
          exact h1

/-! ## Loops over the storages -/

theorem mapStosU_ok {f : Nat → SparseSet V → Res (Out Unit × SparseSet V)} {R : Nat → Out Unit → Sto V → Sto V → Prop}
    (l : List (Nat × SparseSet V)) (A : Nat → Option (Sto V)) (hn : (l.map Prod.fst).Nodup)
    (hA : ∀ k, StoF (lookupK l k) (A k))
    (hf : ∀ k s a L, Abs False s a L → A k = some a →
      ∃ out s' b L', f k s = .ok (out, s') ∧ Abs False s' b L' ∧ R k out a b) :
    ∃ out l' pre post, ∃ A' : Nat → Option (Sto V), mapStosU f l = .ok (out, l') ∧ l'.map Prod.fst = l.map Prod.fst ∧
      l.map Prod.fst = pre ++ post ∧ (∀ k, StoF (lookupK l' k) (A' k)) ∧
      (out = .returned () ∧ post = [] ∨ ∃ u k s s', out = .unwound u ∧ f k s = .ok (.unwound u, s')) ∧
      (∀ k, k ∉ pre → A' k = A k) ∧
      (∀ k, k ∈ pre → ∃ a b o, A k = some a ∧ A' k = some b ∧ R k o a b ∧
        (out = .returned () → o = .returned ())) := by
  induction l generalizing A with
  | nil =>
    exact ⟨_, [], [], [], A, rfl, rfl, rfl, hA, .inl ⟨rfl, rfl⟩, fun _ _ => rfl, (fun k hk => by cases hk)⟩
  | cons x l ih =>
    obtain ⟨k, s⟩ := x
    have hk := hA k
    simp only [lookupK, if_true] at hk
    generalize hAk : A k = ao at hk
    simp only [List.map_cons, List.nodup_cons] at hn
    cases hk with
    | @some _ a L ha =>
      obtain ⟨out, s', b, L', h1, h2, h3⟩ := hf k s a L ha hAk
      have htail : ∀ j, j ≠ k → lookupK ((k, s) :: l) j = lookupK l j := by
        intro j hj; simp only [lookupK, if_neg hj]
      cases out with
      | unwound u =>
        refine ⟨.unwound u, (k, s') :: l, [k], l.map Prod.fst, setTab A k b, ?_, rfl, rfl, ?_,
          .inr ⟨u, k, s, s', rfl, h1⟩, ?_, ?_⟩
        · simp only [mapStosU, h1, bind, Except.bind]
        · intro j
          unfold setTab
          by_cases hj : j = k
          · rw [if_pos hj]
            simp only [lookupK, if_pos hj]
            exact .some h2
          · rw [if_neg hj]
            have := hA j
            rw [htail j hj] at this
            simp only [lookupK, if_neg hj]
            exact this
        · intro j hj
          unfold setTab
          rw [if_neg (by simpa using hj)]
        · intro j hj
          have hj : j = k := by simpa using hj
          subst hj
          exact ⟨a, b, _, hAk, by unfold setTab; rw [if_pos rfl], h3, (fun h => by cases h)⟩
      | returned r =>
        obtain ⟨out, l', pre, post, A', g1, g2, g3, g4, g5, g6, g7⟩ :=
          ih (fun j => if j = k then none else A j) hn.2 (by
            intro j
            by_cases hj : j = k
            · rw [if_pos hj, hj, lookupK_none.2 hn.1]; exact .none
            · rw [if_neg hj]
              have := hA j
              rw [htail j hj] at this
              exact this) (by
            intro j s a L ha hj
            split at hj
            · cases hj
            · exact hf j s a L ha hj)
        have hkpre : k ∉ pre := by
          intro hm
          apply hn.1
          rw [g3]
          exact List.mem_append_left _ hm
        refine ⟨out, (k, s') :: l', k :: pre, post, setTab A' k b, ?_, ?_, ?_, ?_, ?_, ?_, ?_⟩
        · simp only [mapStosU, h1, bind, Except.bind, g1]
        · simp [g2]
        · simp [g3]
        · intro j
          unfold setTab
          by_cases hj : j = k
          · rw [if_pos hj]
            simp only [lookupK, if_pos hj]
            exact .some h2
          · rw [if_neg hj]
            simp only [lookupK, if_neg hj]
            exact g4 j
        · exact g5
        · intro j hj
          have hjk : j ≠ k := fun h => hj (h ▸ List.mem_cons_self)
          unfold setTab
          rw [if_neg hjk, g6 j (fun h => hj (List.mem_cons_of_mem _ h)), if_neg hjk]
        · intro j hj
          by_cases hjk : j = k
          · subst hjk
            exact ⟨a, b, _, hAk, by unfold setTab; rw [if_pos rfl], h3, fun _ => rfl⟩
          · obtain ⟨a', b', o, k1, k2, k3⟩ := g7 j (by
              rcases List.mem_cons.1 hj with h | h
              · exact absurd h hjk
              · exact h)
            rw [if_neg hjk] at k1
            exact ⟨a', b', o, k1, by unfold setTab; rw [if_neg hjk]; exact k2, k3⟩

/-- A loop that only takes components away, `G k x` saying what becomes of the component of `x`. -/
theorem Sound.mapU {w : World V} {A : Nat → Option (Sto V)} {Q : List Nat} {I : List EId}
    (h : Sound w A Q I) {f : Nat → SparseSet V → Res (Out Unit × SparseSet V)}
    {G : Nat → EId → Option V → Option V}
    (hf : ∀ k s a L, Abs False s a L → A k = some a →
      ∃ out s' b L', f k s = .ok (out, s') ∧ Abs False s' b L' ∧
        (Shrinks a b ∧ ∀ x, lookup b.rows x = G k x (lookup a.rows x))) :
    ∃ out l' A' pre post, mapStosU f w.stos = .ok (out, l') ∧ Sound { w with stos := l' } A' Q I ∧
      w.stos.map Prod.fst = pre ++ post ∧
      (out = .returned () ∧ post = [] ∨ ∃ u k s s', out = .unwound u ∧ f k s = .ok (.unwound u, s')) ∧
      (∀ k x, look A' k x = if k ∈ pre then G k x (look A k x) else look A k x) := by
  obtain ⟨out, l', pre, post, A', h1, h2, h3, h4, h5, h6, h7⟩ :=
    mapStosU_ok (R := fun k _ a b => Shrinks a b ∧ ∀ x, lookup b.rows x = G k x (lookup a.rows x))
      w.stos A h.nodup h.sto hf
  refine ⟨out, l', A', pre, post, h1, ⟨h.ent, by rw [h2]; exact h.nodup, h4, ?_, h.alive⟩, h3, h5, ?_⟩
  · intro k b hb
    by_cases hk : k ∈ pre
    · obtain ⟨a, b', _, k1, k2, k3, _⟩ := h7 k hk
      rw [hb] at k2
      cases k2
      exact k3.1.given (h.given k a k1)
    · rw [h6 k hk] at hb
      exact h.given k b hb
  · intro k x
    by_cases hk : k ∈ pre
    · obtain ⟨a, b', _, k1, k2, k3, _⟩ := h7 k hk
      rw [if_pos hk]
      unfold look
      rw [k1, k2]
      exact k3.2 x
    · rw [if_neg hk]
      unfold look
      rw [h6 k hk]

/-- Is `x` an entity `delete(e)` takes the component of? -/
def Hit (e x : EId) : Prop := x.idx = e.idx ∧ x.gen ≤ e.gen

instance (e x : EId) : Decidable (Hit e x) := inferInstanceAs (Decidable (_ ∧ _))

theorem stoDeleteU_tab {s : SparseSet V} {a : Sto V} {L} (h : Abs False s a L) {e : EId} (he : Valid e)
    (now : Nat) (p : Bool × Bool) : ∃ out s' b L', stoDeleteU p e now s = .ok (out, s') ∧ Abs False s' b L' ∧
      (Shrinks a b ∧ ∀ x, lookup b.rows x = if Hit e x then none else lookup a.rows x) := by
  obtain ⟨out, s', b, L', h1, h2, h3, _⟩ := dynDeleteU_tab h he now p.1 p.2
  have h4 : Shrinks a b ∧ ∀ x, lookup b.rows x = if Hit e x then none else lookup a.rows x := by
    refine ⟨shrinks_rows (delTab_shrinks e now a) h3, ?_⟩
    intro x
    rw [h3, lookup_delTab']
    rfl
  cases out with
  | unwound u =>
    refine ⟨.unwound u, s', b, L', ?_, h2, h4⟩
    simp only [stoDeleteU, h1, bind, Except.bind]
  | returned r =>
    refine ⟨.returned (), s', b, L', ?_, h2, h4⟩
    simp only [stoDeleteU, h1, bind, Except.bind]

theorem Sound.stripU {w : World V} {A : Nat → Option (Sto V)} {Q : List Nat} {I : List EId}
    (h : Sound w A Q I) {e : EId} (he : Valid e) (p : Panics) :
    ∃ out w' A' pre post, w.stripU p e = .ok (out, w') ∧ w'.ents = w.ents ∧ Sound w' A' Q I ∧
      w.stos.map Prod.fst = pre ++ post ∧ (out = .returned () → post = []) ∧
      (∀ k x, look A' k x = if k ∈ pre ∧ Hit e x then none else look A k x) := by
  obtain ⟨out, l', A', pre, post, h1, h2, h3, h4, h5⟩ := h.mapU
    (f := fun k => stoDeleteU (p k) e w.counter) (G := fun _ x o => if Hit e x then none else o)
    (fun k s a L ha _ => stoDeleteU_tab ha he w.counter (p k))
  refine ⟨out, { w.tick with stos := l' }, A', pre, post, ?_, rfl, h2.tick, h3, ?_, ?_⟩
  · simp only [World.stripU, h1, bind, Except.bind]
  · intro ho
    rcases h4 with h4 | ⟨u, _, _, _, hu, _⟩
    · exact h4.2
    · rw [ho] at hu; cases hu
  · intro k x
    rw [h5]
    by_cases hk : k ∈ pre
    · by_cases hh : Hit e x
      · rw [if_pos hk, if_pos hh, if_pos ⟨hk, hh⟩]
      · rw [if_pos hk, if_neg hh, if_neg (fun h => hh h.2)]
    · rw [if_neg hk, if_neg (fun h => hk h.1)]

theorem Sound.retainStorageByIdU {w : World V} {A : Nat → Option (Sto V)} {Q : List Nat} {I : List EId}
    (h : Sound w A Q I) {e : EId} (he : Valid e) (p : Panics) (keep : List Nat) :
    ∃ out w' A' pre post, w.retainStorageByIdU p e keep = .ok (out, w') ∧ w'.ents = w.ents ∧
      Sound w' A' Q I ∧
      w.stos.map Prod.fst = pre ++ post ∧ (out = .returned () → post = []) ∧
      (∀ k x, look A' k x = if k ∈ pre ∧ k ∉ keep ∧ Hit e x then none else look A k x) := by
  obtain ⟨out, l', A', pre, post, h1, h2, h3, h4, h5⟩ := h.mapU
    (f := fun k s => if keep.contains k then .ok (.returned (), s) else stoDeleteU (p k) e w.counter s)
    (G := fun k x o => if k ∉ keep ∧ Hit e x then none else o) (by
      intro k s a L ha _
      by_cases hk : k ∈ keep
      · refine ⟨_, s, a, L, if_pos (List.contains_iff_mem.2 hk), ha, Shrinks.refl a, ?_⟩
        intro x
        rw [if_neg (fun h => h.1 hk)]
      · obtain ⟨out, s', b, L', k1, k2, k3, k4⟩ := stoDeleteU_tab ha he w.counter (p k)
        refine ⟨out, s', b, L', ?_, k2, k3, ?_⟩
        · rw [if_neg (fun h => hk (List.contains_iff_mem.1 h)), k1]
        · intro x
          rw [k4]
          by_cases hh : Hit e x
          · rw [if_pos hh, if_pos ⟨hk, hh⟩]
          · rw [if_neg hh, if_neg (fun h => hh h.2)])
  refine ⟨out, { w.tick with stos := l' }, A', pre, post, ?_, rfl, h2.tick, h3, ?_, ?_⟩
  · simp only [World.retainStorageByIdU, h1, bind, Except.bind]
  · intro ho
    rcases h4 with h4 | ⟨u, _, _, _, hu, _⟩
    · exact h4.2
    · rw [ho] at hu; cases hu
  · intro k x
    rw [h5]
    by_cases hk : k ∈ pre
    · by_cases hh : k ∉ keep ∧ Hit e x
      · rw [if_pos hk, if_pos hh, if_pos ⟨hk, hh⟩]
      · rw [if_pos hk, if_neg hh, if_neg (fun h => hh h.2)]
    · rw [if_neg hk, if_neg (fun h => hk h.1)]

theorem stoDeleteAllU_tab (p : Panics) (now : Nat) (es : List EId) (hes : ∀ e ∈ es, Valid e) :
    ∀ (i : Nat) {s : SparseSet V} {a : Sto V} {L}, Abs False s a L →
    ∃ out s' b L', stoDeleteAllU p now i es s = .ok (out, s') ∧ Abs False s' b L' ∧ Shrinks a b ∧
      (∀ x, lookup b.rows x ≠ lookup a.rows x → lookup b.rows x = none ∧ ∃ e ∈ es, Hit e x) ∧
      (out = .returned () → ∀ e ∈ es, ∀ x, Hit e x → lookup b.rows x = none) := by
  induction es with
  | nil =>
    intro i s a L h
    exact ⟨_, s, a, L, rfl, h, Shrinks.refl a, (fun x hx => absurd rfl hx), (fun _ e he => by cases he)⟩
  | cons e es ih =>
    intro i s a L h
    obtain ⟨out, s1, b1, L1, h1, h2, h3, h4⟩ := stoDeleteU_tab h (hes e List.mem_cons_self) now (p i)
    cases out with
    | unwound u =>
      refine ⟨.unwound u, s1, b1, L1, ?_, h2, h3, ?_, (fun h => by cases h)⟩
      · simp only [stoDeleteAllU, h1, bind, Except.bind]
      · intro x hx
        rw [h4] at hx ⊢
        by_cases hh : Hit e x
        · rw [if_pos hh]; exact ⟨rfl, e, List.mem_cons_self, hh⟩
        · rw [if_neg hh] at hx; exact absurd rfl hx
    | returned r =>
      obtain ⟨out, s', b, L', g1, g2, g3, g4, g5⟩ :=
        ih (fun e he => hes e (List.mem_cons_of_mem _ he)) (i + 1) h2
      refine ⟨out, s', b, L', ?_, g2, h3.trans g3, ?_, ?_⟩
      · simp only [stoDeleteAllU, h1, bind, Except.bind, g1]
      · intro x hx
        by_cases hb : lookup b.rows x = lookup b1.rows x
        · rw [hb] at hx ⊢
          rw [h4] at hx ⊢
          by_cases hh : Hit e x
          · rw [if_pos hh]; exact ⟨rfl, e, List.mem_cons_self, hh⟩
          · rw [if_neg hh] at hx; exact absurd rfl hx
        · obtain ⟨k1, e', k2, k3⟩ := g4 x hb
          exact ⟨k1, e', List.mem_cons_of_mem _ k2, k3⟩
      · intro ho e' he' x hh
        rcases List.mem_cons.1 he' with rfl | he'
        · by_cases hb : lookup b.rows x = lookup b1.rows x
          · rw [hb, h4, if_pos hh]
          · exact (g4 x hb).1
        · exact g5 ho e' he' x hh

theorem Sound.bulkStripU {w : World V} {A : Nat → Option (Sto V)} {Q : List Nat} {I : List EId}
    (h : Sound w A Q I) {es : List EId} (hes : ∀ e ∈ es, Valid e) (p : Nat → Panics) :
    ∃ out w' A', w.bulkStripU p es = .ok (out, w') ∧ w'.ents = w.ents ∧ Sound w' A' Q I ∧
      (∀ k x, look A' k x ≠ look A k x → look A' k x = none ∧ ∃ e ∈ es, Hit e x) ∧
      (out = .returned () → ∀ e ∈ es, ∀ k x, Hit e x → look A' k x = none) := by
  obtain ⟨out, l', pre, post, A', h1, h2, h3, h4, h5, h6, h7⟩ := mapStosU_ok
    (f := fun k => stoDeleteAllU (p k) w.counter 0 es)
    (R := fun _ o a b => Shrinks a b ∧
      (∀ x, lookup b.rows x ≠ lookup a.rows x → lookup b.rows x = none ∧ ∃ e ∈ es, Hit e x) ∧
      (o = .returned () → ∀ e ∈ es, ∀ x, Hit e x → lookup b.rows x = none)) w.stos A h.nodup h.sto (by
    intro k s a L ha _
    exact stoDeleteAllU_tab (p k) w.counter es hes 0 ha)
  refine ⟨out, { w.tick with stos := l' }, A', ?_, rfl, ⟨h.ent, ?_, h4, ?_, h.alive⟩, ?_, ?_⟩
  · simp only [World.bulkStripU, h1, bind, Except.bind]
  · show (l'.map Prod.fst).Nodup
    rw [h2]; exact h.nodup
  · intro k b hb
    by_cases hk : k ∈ pre
    · obtain ⟨a, b', _, k1, k2, k3, _⟩ := h7 k hk
      rw [hb] at k2
      cases k2
      exact k3.1.given (h.given k a k1)
    · rw [h6 k hk] at hb
      exact h.given k b hb
  · intro k x hx
    by_cases hk : k ∈ pre
    · obtain ⟨a, b', _, k1, k2, k3, _⟩ := h7 k hk
      unfold look at hx ⊢
      rw [k1, k2] at hx
      rw [k2]
      exact k3.2.1 x hx
    · unfold look at hx
      rw [h6 k hk] at hx
      exact absurd rfl hx
  · intro ho e he k x hh
    have hpost : post = [] := by
      rcases h5 with h5 | ⟨u, _, _, _, hu, _⟩
      · exact h5.2
      · rw [ho] at hu; cases hu
    by_cases hk : k ∈ pre
    · obtain ⟨a, b', _, k1, k2, k3, k4⟩ := h7 k hk
      unfold look
      rw [k2]
      exact k3.2.2 (k4 ho) e he x hh
    · have hn : lookupK w.stos k = none := by
        rw [lookupK_none, h3, hpost, List.append_nil]
        exact hk
      have h8 := h.sto k
      rw [hn] at h8
      unfold look
      rw [h6 k hk]
      generalize A k = ao at h8
      cases h8
      rfl

/-! ## Deleting an entity -/

theorem ent_deleteU {s : Entities} {Q : List Nat} {I : List EId} (h : EntOK s Q I)
    (hal : ∀ e, s.isAlive e = true → e ∈ I) (e : EId) (hp : Bool) :
    ∃ out s' Q', s.deleteUncheckedU e hp = .ok (out, s') ∧ EntOK s' Q' I ∧
      (∀ x, s'.isAlive x = true → x ∈ I) ∧
      (∀ x, x ≠ e → s'.isAlive x = s.isAlive x) ∧ (e.gen < 65533 → s'.isAlive e = false) ∧
      (s.isAlive e = false → out = .returned false ∧ s' = s) ∧
      (s.isAlive e = true → out = .returned true ∨ out = .unwound .hook) := by
  obtain ⟨s', Q', h1, h2, h3, h4, h5, h6⟩ := ent_delete h e
  have hal' : ∀ x, s'.isAlive x = true → x ∈ I := by
    intro x hx
    by_cases hxe : x = e
    · subst hxe
      by_cases hg : x.gen < 65533
      · rw [h4 hg] at hx; cases hx
      · rw [h6 (by omega)] at hx; exact hal x hx
    · rw [h3 x hxe] at hx; exact hal x hx
  unfold Entities.deleteUncheckedU
  simp only [h1, bind, Except.bind]
  cases ha : s.isAlive e with
  | false =>
    have := h5 ha
    subst this
    refine ⟨.returned false, s', Q', by simp, h2, hal', h3, h4, fun _ => ⟨rfl, rfl⟩, (fun h => by cases h)⟩
  | true =>
    by_cases hb : (s'.hook && hp) = true
    · refine ⟨.unwound .hook, s', Q', ?_, h2, hal', h3, h4, (fun h => by cases h), fun _ => .inr rfl⟩
      simp only [Bool.true_and]
      rw [if_pos hb]
    · refine ⟨.returned true, s', Q', ?_, h2, hal', h3, h4, (fun h => by cases h), fun _ => .inl rfl⟩
      simp only [Bool.true_and]
      rw [if_neg hb]

theorem Sound.deleteEntityU {w : World V} {A : Nat → Option (Sto V)} {Q : List Nat} {I : List EId}
    (h : Sound w A Q I) (e : EId) (hp : Bool) (p : Panics) :
    ∃ out w' A' Q' pre post, w.deleteEntityU hp p e = .ok (out, w') ∧ Sound w' A' Q' I ∧
      (∀ x, x ≠ e → w'.ents.isAlive x = w.ents.isAlive x) ∧
      (e.gen < 65533 → w'.ents.isAlive e = false) ∧
      (w.ents.isAlive e = false → out = .returned false ∧ w' = w ∧ pre = []) ∧
      (w.ents.isAlive e = true → out ≠ .returned false) ∧
      w.stos.map Prod.fst = pre ++ post ∧ (out = .returned true → post = []) ∧
      (∀ k x, look A' k x = if k ∈ pre ∧ Hit e x then none else look A k x) := by
  obtain ⟨out, s', Q', h1, h2, h3, h4, h5, h6, h7⟩ := ent_deleteU h.ent h.alive e hp
  have hw := h.ents h2 (fun _ h => h) h3
  have hno : ∀ k x, look A k x = if k ∈ ([] : List Nat) ∧ Hit e x then none else look A k x := by
    intro k x; rw [if_neg (fun h => by cases h.1)]
  cases ha : w.ents.isAlive e with
  | false =>
    obtain ⟨ho, hs⟩ := h6 ha
    subst ho; subst hs
    refine ⟨.returned false, w, A, Q', [], w.stos.map Prod.fst, ?_, hw, h4, h5, fun _ => ⟨rfl, rfl, rfl⟩,
      (fun h => by cases h), rfl, (fun h => by cases h), hno⟩
    simp only [World.deleteEntityU, h1, bind, Except.bind]
  | true =>
    rcases h7 ha with rfl | rfl
    · obtain ⟨out, w', A', pre, post, g1, g2, g3, g4, g5, g6⟩ := hw.stripU (h.ent.valid ha) p
      cases out with
      | unwound u =>
        refine ⟨.unwound u, w', A', Q', pre, post, ?_, g3, (fun x hx => by rw [g2]; exact h4 x hx),
          (fun hg => by rw [g2]; exact h5 hg), (fun h => by cases h), (fun _ h => by cases h), g4,
          (fun h => by cases h), g6⟩
        simp only [World.deleteEntityU, h1, bind, Except.bind, g1]
      | returned r =>
        refine ⟨.returned true, w', A', Q', pre, post, ?_, g3, (fun x hx => by rw [g2]; exact h4 x hx),
          (fun hg => by rw [g2]; exact h5 hg), (fun h => by cases h), (fun _ h => by cases h), g4,
          (fun _ => g5 rfl), g6⟩
        simp only [World.deleteEntityU, h1, bind, Except.bind, g1]
    · refine ⟨.unwound .hook, { w with ents := s' }, A, Q', [], w.stos.map Prod.fst, ?_, hw, h4, h5,
        (fun h => by cases h), (fun _ h => by cases h), rfl, (fun h => by cases h), hno⟩
      simp only [World.deleteEntityU, h1, bind, Except.bind]

/-! ## Removing components -/

theorem Sound.removeAllU {w : World V} {A : Nat → Option (Sto V)} {Q : List Nat} {I : List EId}
    (h : Sound w A Q I) {e : EId} (he : Valid e) (p : Panics) (now i : Nat) (ks : List Nat) :
    ∃ out w' A' pre post, removeAllU fl p e now i ks w = .ok (out, w') ∧ w'.ents = w.ents ∧
      Sound w' A' Q I ∧ ks = pre ++ post ∧
      (∀ rs, out = .returned rs → post = [] ∧ (ks.Nodup → rs = ks.map fun k => look A k e)) ∧
      (∀ k x, look A' k x = if k ∈ pre ∧ Hit e x then none else look A k x) := by
  induction ks generalizing w A i with
  | nil =>
    refine ⟨_, w, A, [], [], rfl, rfl, h, rfl, ?_, fun k x => by simp⟩
    intro rs hrs; cases hrs; exact ⟨rfl, fun _ => rfl⟩
  | cons j ks ih =>
    obtain ⟨L, hL⟩ := h.stoOr (fl := fl) j
    obtain ⟨out, s', b, L', h1, h2, h3, h4⟩ := dynRemoveU_tab hL he now (p i).1 (p i).2
    have hput := h.put j h2 ((shrinks_rows (delTab_shrinks e now _) h3).given (h.tabOr_given (fl := fl) j))
    have hlk : ∀ k x, look (setTab A j b) k x = if k ∈ [j] ∧ Hit e x then none else look A k x := by
      intro k x
      rw [look_setTab]
      by_cases hk : k = j
      · subst hk
        rw [if_pos rfl, h3, lookup_delTab', lookup_tabOr]
        simp only [List.mem_singleton, true_and]
        rfl
      · rw [if_neg hk, if_neg (by simp [hk])]
    cases out with
    | unwound u =>
      refine ⟨.unwound u, w.put j s', setTab A j b, [j], ks, ?_, rfl, hput, rfl, (fun rs h => by cases h), hlk⟩
      simp only [World.removeAllU, h1, bind, Except.bind]
    | returned r =>
      have hr := h4 r rfl
      obtain ⟨out, w', A', pre, post, g1, g2, g3, g4, g5, g6⟩ := ih hput (i + 1)
      have hlk' : ∀ k x, look A' k x = if k ∈ j :: pre ∧ Hit e x then none else look A k x := by
        intro k x
        rw [g6, hlk]
        by_cases hh : Hit e x
        · by_cases hp : k ∈ pre
          · simp [hh, hp]
          · simp [hh, hp]
        · simp [hh]
      cases out with
      | unwound u =>
        refine ⟨.unwound u, w', A', j :: pre, post, ?_, g2, g3, by rw [g4]; rfl, (fun rs h => by cases h), hlk'⟩
        simp only [World.removeAllU, h1, bind, Except.bind, g1]
      | returned rs =>
        refine ⟨.returned (r :: rs), w', A', j :: pre, post, ?_, g2, g3, by rw [g4]; rfl, ?_, hlk'⟩
        · simp only [World.removeAllU, h1, bind, Except.bind, g1]
        · intro rs' hrs
          cases hrs
          obtain ⟨k1, k2⟩ := g5 rs rfl
          refine ⟨k1, ?_⟩
          intro hn
          simp only [List.nodup_cons] at hn
          rw [k2 hn.2, hr, lookup_tabOr]
          simp only [List.map_cons, List.cons.injEq, true_and]
          apply List.map_congr_left
          intro k hk
          rw [hlk, if_neg]
          intro hh
          have : k = j := by simpa using hh.1
          exact hn.1 (this ▸ hk)

theorem Sound.deleteFirstU {w : World V} {A : Nat → Option (Sto V)} {Q : List Nat} {I : List EId}
    (h : Sound w A Q I) {e : EId} (he : Valid e) (p : Panics) (now i : Nat) (ks : List Nat) :
    ∃ out w' A' pre post, deleteFirstU fl p e now i ks w = .ok (out, w') ∧ w'.ents = w.ents ∧
      Sound w' A' Q I ∧ ks = pre ++ post ∧
      (∀ b, out = .returned b → (b = ks.any fun k => (look A k e).isSome) ∧
        (b = true → ∃ k ∈ pre, (look A k e).isSome)) ∧
      (∀ k ∈ pre.dropLast, look A k e = none) ∧
      (∀ k x, look A' k x = if k ∈ pre ∧ Hit e x then none else look A k x) := by
  induction ks generalizing w A i with
  | nil =>
    refine ⟨_, w, A, [], [], rfl, rfl, h, rfl, ?_, (fun k hk => by cases hk), fun k x => by simp⟩
    intro rs hrs; cases hrs; exact ⟨rfl, (fun h => by cases h)⟩
  | cons j ks ih =>
    obtain ⟨L, hL⟩ := h.stoOr (fl := fl) j
    obtain ⟨out, s', b, L', h1, h2, h3, h4⟩ := dynDeleteU_tab hL he now (p i).1 (p i).2
    have hput := h.put j h2 ((shrinks_rows (delTab_shrinks e now _) h3).given (h.tabOr_given (fl := fl) j))
    have hlk : ∀ k x, look (setTab A j b) k x = if k ∈ [j] ∧ Hit e x then none else look A k x := by
      intro k x
      rw [look_setTab]
      by_cases hk : k = j
      · subst hk
        rw [if_pos rfl, h3, lookup_delTab', lookup_tabOr]
        simp only [List.mem_singleton, true_and]
        rfl
      · rw [if_neg hk, if_neg (by simp [hk])]
    cases out with
    | unwound u =>
      refine ⟨.unwound u, w.put j s', setTab A j b, [j], ks, ?_, rfl, hput, rfl, (fun rs h => by cases h),
        (fun k hk => by cases hk), hlk⟩
      simp only [World.deleteFirstU, h1, bind, Except.bind]
    | returned r =>
      have hr := h4 r rfl
      rw [lookup_tabOr] at hr
      cases r with
      | true =>
        refine ⟨.returned true, w.put j s', setTab A j b, [j], ks, ?_, rfl, hput, rfl, ?_,
          (fun k hk => by cases hk), hlk⟩
        · simp only [World.deleteFirstU, h1, bind, Except.bind, if_true]
        · intro b hb
          cases hb
          exact ⟨by simp [← hr], fun _ => ⟨j, by simp, hr.symm⟩⟩
      | false =>
        obtain ⟨out, w', A', pre, post, g1, g2, g3, g4, g5, g7, g6⟩ := ih hput (i + 1)
        have this : ∀ k, look (setTab A j b) k e = look A k e := by
          intro k
          rw [hlk]
          split
          · rename_i hh
            have : k = j := by simpa using hh.1
            subst this
            cases hv : look A k e with
            | none => rfl
            | some v => rw [hv] at hr; cases hr
          · rfl
        refine ⟨out, w', A', j :: pre, post, ?_, g2, g3, by rw [g4]; rfl, ?_, ?_, ?_⟩
        · simp only [World.deleteFirstU, h1, bind, Except.bind, Bool.false_eq_true, if_false, g1]
        · intro b' hb
          obtain ⟨k1, k2⟩ := g5 b' hb
          simp only [this] at k1 k2
          refine ⟨?_, fun hb' => ?_⟩
          · rw [k1]; simp only [List.any_cons, ← hr, Bool.false_or]
          · obtain ⟨k, hk, hs⟩ := k2 hb'
            exact ⟨k, List.mem_cons_of_mem _ hk, hs⟩
        · intro k hk
          cases pre with
          | nil => cases hk
          | cons q pre =>
            simp only [List.dropLast_cons_cons, List.mem_cons] at hk
            rcases hk with rfl | hk
            · cases hv : look A k e with
              | none => rfl
              | some v => rw [hv] at hr; cases hr
            · rw [← this]; exact g7 k hk
        · intro k x
          rw [g6, hlk]
          by_cases hh : Hit e x
          · by_cases hp : k ∈ pre
            · simp [hh, hp]
            · simp [hh, hp]
          · simp [hh]

/-! ## Clearing -/

theorem clearLoopU_ok (panicsAt : Nat → Bool) (n : Nat) : ∀ (d : List EId) (la : Nat) {d' called},
    Entities.clearLoop d la n = .ok (d', called) →
    Entities.clearLoopU panicsAt d la n = .ok (d', called, false) ∨
      ∃ d'' called', Entities.clearLoopU panicsAt d la n = .ok (d'', called', true) := by
  induction n with
  | zero => intro d la d' called h; cases h; exact .inl rfl
  | succ i ih =>
    intro d la d' called h
    unfold Entities.clearLoop at h
    unfold Entities.clearLoopU
    simp only [bind, Except.bind] at h ⊢
    cases hg : Entities.getC d i with
    | error f => rw [hg] at h; cases h
    | ok id =>
      rw [hg] at h
      simp only at h ⊢
      cases hb : id.bumpGen with
      | none =>
        rw [hb] at h
        simp only at h ⊢
        cases hs : id.setIndex la with
        | error f => rw [hs] at h; cases h
        | ok b' =>
          rw [hs] at h
          exact ih _ _ h
      | some b =>
        rw [hb] at h
        simp only at h ⊢
        split
        · exact .inr ⟨_, _, rfl⟩
        · cases hs : b.setIndex la with
          | error f => rw [hs] at h; cases h
          | ok b' =>
            rw [hs] at h
            simp only at h ⊢
            cases hr : Entities.clearLoop (d.set i b') i i with
            | error f => rw [hr] at h; cases h
            | ok q =>
              rw [hr] at h
              cases h
              rcases ih (d.set i b') i hr with h1 | ⟨d'', c', h1⟩
              · rw [h1]; exact .inl rfl
              · rw [h1]; exact .inr ⟨_, _, rfl⟩

/-- Unless its callback panics, `clear` of the entities does what it always does. -/
theorem entClearU_ok {s s' : Entities} (hp : Nat → Bool) (h : s.clear = .ok s') :
    s.clearU hp = .ok (.returned (), s') ∨ ∃ s'', s.clearU hp = .ok (.unwound .hook, s'') := by
  unfold Entities.clear at h
  unfold Entities.clearU
  split
  · rename_i hb
    rw [if_pos hb] at h
    cases h
    exact .inl rfl
  · rename_i hb
    rw [if_neg hb] at h
    simp only [bind, Except.bind] at h ⊢
    cases hc : Entities.clearLoop s.data (if s.data.length = EId.maxIndex then 0 else EId.maxIndex)
        s.data.length with
    | error f => rw [hc] at h; cases h
    | ok q =>
      obtain ⟨d, called⟩ := q
      rw [hc] at h
      simp only at h
      rcases clearLoopU_ok (fun i => s.hook && hp i) s.data.length s.data _ hc with h1 | ⟨d'', c', h1⟩
      · rw [h1]
        left
        simp only [Bool.false_eq_true, if_false]
        cases h2 : d.findIdx? (fun id => decide (id.gen < EId.MAX_GEN)) with
        | none => rw [h2] at h; cases h
        | some b =>
          cases h3 : d.reverse.findIdx? (fun id => decide (id.gen < EId.MAX_GEN)) with
          | none => rw [h2, h3] at h; cases h
          | some e => rw [h2, h3] at h; cases h; rfl
      · rw [h1]
        exact .inr ⟨_, rfl⟩

theorem mapStosU_append (f : Nat → SparseSet V → Res (Out Unit × SparseSet V))
    (l1 l2 : List (Nat × SparseSet V)) : mapStosU f (l1 ++ l2) =
      match mapStosU f l1 with
      | .ok (.unwound u, l) => .ok (.unwound u, l ++ l2)
      | .ok (.returned _, l) =>
        match mapStosU f l2 with
        | .ok (out, l') => .ok (out, l ++ l')
        | .error g => .error g
      | .error g => .error g := by
  induction l1 with
  | nil =>
    simp only [List.nil_append, mapStosU]
    cases mapStosU f l2 with
    | error => rfl
    | ok q => rfl
  | cons x l1 ih =>
    obtain ⟨k, s⟩ := x
    simp only [List.cons_append, mapStosU, bind, Except.bind]
    cases f k s with
    | error => rfl
    | ok q =>
      obtain ⟨o, s'⟩ := q
      cases o with
      | unwound u => rfl
      | returned r =>
        simp only [ih]
        cases mapStosU f l1 with
        | error => rfl
        | ok q =>
          obtain ⟨o, l⟩ := q
          cases o with
          | unwound u => rfl
          | returned r =>
            simp only
            cases mapStosU f l2 with
            | error => rfl
            | ok q => rfl

theorem stoClearU_tab {s : SparseSet V} {a : Sto V} {L} (h : Abs False s a L) (now : Nat) (dp : Bool) :
    ∃ out s' b L', s.clearU now dp = .ok (out, s') ∧ Abs False s' b L' ∧
      (Shrinks a b ∧ ∀ x, lookup b.rows x = none) ∧ out ≠ .unwound .hook := by
  obtain ⟨sp', h1, _⟩ := SparseSet.clear_ok (s := s) h.ok now
  rw [← h.shape] at h1
  obtain ⟨L', hL'⟩ := SparseSet.abs_step (Q := False) h (.clear h1) (fun q => q) (fun q => q.elim)
  have h2 := SparseSet.clearU_eq s now dp
  rw [h1] at h2
  refine ⟨_, _, _, L', h2, hL', ⟨?_, ?_⟩, ?_⟩
  · intro i r hr; cases hr
  · intro x; rfl
  · split
    · intro h; cases h
    · intro h; cases h

/-- `clear`: which storages are empty then, and whether the entities are gone. -/
theorem Sound.clearU {w : World V} {A : Nat → Option (Sto V)} {Q : List Nat} {I : List EId}
    (h : Sound w A Q I) (hne : ∀ e ∈ w.ents.data, e.gen < 65533) (m : Nat) (hp : Nat → Bool) (p : Panics) :
    ∃ out w', w.clearU m hp p = .ok (out, w') ∧ (out ≠ .unwound .hook → ∃ A' Q' pre post,
      Sound w' A' Q' I ∧ w.stos.map Prod.fst = pre ++ post ∧ (out = .returned () → post = []) ∧
      (∀ k x, look A' k x = if k ∈ pre then none else look A k x) ∧
      (w'.ents = w.ents ∨ ∀ x, w'.ents.isAlive x = false) ∧
      (out = .returned () → ∀ x, w'.ents.isAlive x = false)) := by
  obtain ⟨se, Qe, hs, hE, hal⟩ := ent_clear h.ent hne
  obtain ⟨out, l', A', pre, post, h1, h2, h3, h4, h5⟩ := h.mapU
    (f := fun k s => s.clearU w.counter (p k).2) (G := fun _ _ _ => none) (by
      intro k s a L ha _
      obtain ⟨out, s', b, L', k1, k2, k3, _⟩ := stoClearU_tab ha w.counter (p k).2
      exact ⟨out, s', b, L', k1, k2, k3⟩)
  have hpost : out = .returned () → post = [] := by
    intro ho
    rcases h4 with h4 | ⟨u, _, _, _, hu, _⟩
    · exact h4.2
    · rw [ho] at hu; cases hu
  have happ := mapStosU_append (fun k (s : SparseSet V) => s.clearU w.counter (p k).2)
    (w.stos.take m) (w.stos.drop m)
  rw [List.take_append_drop, h1] at happ
  have hcleared : Sound { w.tick with ents := se, stos := l' } A' Qe I :=
    h2.tick.ents hE (fun _ h => h) (fun e he => by rw [hal e] at he; cases he)
  unfold World.clearU
  simp only [bind, Except.bind]
  cases hm : mapStosU (fun k (s : SparseSet V) => s.clearU w.counter (p k).2) (w.stos.take m) with
  | error f => rw [hm] at happ; cases happ
  | ok q =>
    obtain ⟨o, l⟩ := q
    rw [hm] at happ
    cases o with
    | unwound u =>
      simp only at happ ⊢
      injection happ with happ
      injection happ with ho hl
      subst ho; subst hl
      exact ⟨_, _, rfl, fun _ => ⟨A', Q, pre, post, h2.tick, h3, hpost, h5, .inl rfl, (fun h => by cases h)⟩⟩
    | returned r =>
      simp only at happ ⊢
      rcases entClearU_ok hp hs with he | ⟨s'', he⟩
      · rw [he]
        simp only
        cases hm2 : mapStosU (fun k (s : SparseSet V) => s.clearU w.counter (p k).2) (w.stos.drop m) with
        | error f => rw [hm2] at happ; cases happ
        | ok q =>
          obtain ⟨o, l2⟩ := q
          rw [hm2] at happ
          simp only at happ ⊢
          injection happ with happ
          injection happ with ho hl
          subst ho; subst hl
          exact ⟨_, _, rfl, fun _ => ⟨A', Qe, pre, post, hcleared, h3, hpost, h5, .inr hal, fun _ => hal⟩⟩
      · rw [he]
        exact ⟨_, _, rfl, fun h => absurd rfl h⟩

/-! ## `delete_any` -/

theorem Sound.deleteAnyCollectU {w : World V} {A : Nat → Option (Sto V)} {Q : List Nat} {I : List EId}
    (h : Sound w A Q I) (p : Panics) (now i : Nat) (ks : List Nat) :
    ∃ out w' A', deleteAnyCollectU p now i ks w = .ok (out, w') ∧ w'.ents = w.ents ∧ Sound w' A' Q I := by
  induction ks generalizing w A i with
  | nil => exact ⟨_, w, A, rfl, rfl, h⟩
  | cons j ks ih =>
    have hj := h.sto j
    generalize hl : lookupK w.stos j = so at hj
    generalize hA : A j = ao at hj
    cases hj with
    | none =>
      obtain ⟨out, w', A', h1, h2, h3⟩ := ih h (i + 1)
      refine ⟨out, w', A', ?_, h2, h3⟩
      simp only [World.deleteAnyCollectU, hl]; exact h1
    | @some s a L ha =>
      obtain ⟨out, s', b, L', k1, k2, k3, _⟩ := stoClearU_tab ha now (p i).2
      have hput := h.put j k2 (k3.1.given (h.given j a hA))
      cases out with
      | unwound u =>
        refine ⟨.unwound u, w.put j s', _, ?_, rfl, hput⟩
        simp only [World.deleteAnyCollectU, hl, k1, bind, Except.bind]
      | returned r =>
        obtain ⟨out, w', A', h1, h2, h3⟩ := ih hput (i + 1)
        cases out with
        | unwound u =>
          refine ⟨.unwound u, w', A', ?_, h2, h3⟩
          simp only [World.deleteAnyCollectU, hl, k1, bind, Except.bind, h1]
        | returned ids =>
          refine ⟨.returned (s.dense ++ ids), w', A', ?_, h2, h3⟩
          simp only [World.deleteAnyCollectU, hl, k1, bind, Except.bind, h1]

theorem Sound.deleteEntitiesU {w : World V} {A : Nat → Option (Sto V)} {Q : List Nat} {I : List EId}
    (h : Sound w A Q I) (q : Nat → Bool × Panics) (i : Nat) (es : List EId) :
    ∃ out w' A' Q', deleteEntitiesU q i es w = .ok (out, w') ∧ Sound w' A' Q' I ∧
      (∀ x, x ∉ es → w'.ents.isAlive x = w.ents.isAlive x) ∧
      (out = .returned () → ∀ x ∈ es, x.gen < 65533 → w'.ents.isAlive x = false) := by
  induction es generalizing w A Q i with
  | nil => exact ⟨_, w, A, Q, rfl, h, fun _ _ => rfl, (fun _ x hx => by cases hx)⟩
  | cons e es ih =>
    obtain ⟨out, w1, A1, Q1, pre, post, h1, h2, h3, h4, _⟩ := h.deleteEntityU e (q i).1 (q i).2
    cases out with
    | unwound u =>
      refine ⟨.unwound u, w1, A1, Q1, ?_, h2, ?_, (fun h => by cases h)⟩
      · simp only [World.deleteEntitiesU, h1, bind, Except.bind]
      · intro x hx; exact h3 x (fun h => hx (h ▸ List.mem_cons_self))
    | returned b =>
      obtain ⟨out, w', A', Q', g1, g2, g3, g4⟩ := ih h2 (i + 1)
      refine ⟨out, w', A', Q', ?_, g2, ?_, ?_⟩
      · simp only [World.deleteEntitiesU, h1, bind, Except.bind, g1]
      · intro x hx
        rw [g3 x (fun h => hx (List.mem_cons_of_mem _ h)), h3 x (fun h => hx (h ▸ List.mem_cons_self))]
      · intro ho x hx hg
        by_cases hm : x ∈ es
        · exact g4 ho x hm hg
        · rw [g3 x hm]
          rcases List.mem_cons.1 hx with rfl | hx
          · exact h4 hg
          · exact absurd hx hm

theorem Sound.deleteAnyU {w : World V} {A : Nat → Option (Sto V)} {Q : List Nat} {I : List EId}
    (h : Sound w A Q I) (p : Panics) (q : Nat → Bool × Panics) (ks : List Nat)
    (order : List EId → List EId) :
    ∃ out w' A' Q', w.deleteAnyU p q ks order = .ok (out, w') ∧ Sound w' A' Q' I := by
  obtain ⟨out, w1, A1, h1, _, h3⟩ := h.tick.deleteAnyCollectU p w.counter 0 ks
  cases out with
  | unwound u =>
    refine ⟨.unwound u, w1, A1, Q, ?_, h3⟩
    simp only [World.deleteAnyU, h1, bind, Except.bind]
  | returned ids =>
    obtain ⟨out, w', A', Q', g1, g2, _⟩ := h3.deleteEntitiesU q 0 (order ids)
    refine ⟨out, w', A', Q', ?_, g2⟩
    simp only [World.deleteAnyU, h1, bind, Except.bind, g1]

/-! ## Adding entities -/

/-- A new id was never handed out. -/
theorem ent_generate_fresh {s : Entities} {Q : List Nat} {I : List EId} (h : EntOK s Q I) {e s'}
    (hs : s.generate = .ok (e, s')) (hcap : s'.data.length < EId.maxIndex) : e ∉ I := by
  obtain ⟨Q', hi, he⟩ := Entities.generate_effect h.inv hs hcap
  exact (Entities.effect_bounded h.inv h.bnd he).2 e (by simp [EntSpec.Event.created])

theorem Sound.addEntityU {w : World V} {A : Nat → Option (Sto V)} {Q : List Nat} {I : List EId}
    (h : Sound w A Q I) {e : EId} {ents : Entities} (hg : w.ents.generate = .ok (e, ents))
    (hcap : ents.data.length < EId.maxIndex) (p : Panics) (cs : List (Nat × Option V)) :
    ∃ out w' A' Q' pre post, w.addEntityU fl p cs = .ok (e, out, w') ∧ w'.ents = ents ∧
      Sound w' A' Q' (I ++ [e]) ∧ e ∉ I ∧
      (∀ x, w'.ents.isAlive x = true ↔ w.ents.isAlive x = true ∨ x = e) ∧
      cs = pre ++ post ∧
      (out = .returned () ∧ post = [] ∨ ∃ u, out = .unwound u ∧ (u = .hook ∨ u = .dtor)) ∧
      (∀ k, look A' k e = Listed pre k none) ∧
      (∀ k x, x.idx ≠ e.idx → look A' k x = look A k x) := by
  obtain ⟨⟨Q', hE⟩, hal, hno⟩ := ent_generate h.ent hg hcap
  have hfresh := ent_generate_fresh h.ent hg hcap
  have h1 : Sound { w.tick with ents := ents } A Q' (I ++ [e]) :=
    h.tick.ents hE (fun x hx => List.mem_append_left _ hx) (fun x hx => by
      rcases (hal x).1 hx with hx | hx
      · exact List.mem_append_left _ (h.alive x hx)
      · rw [hx]; simp)
  obtain ⟨out, w', A', pre, post, h2, h3, _, h4, h5, h6, h7, h8⟩ :=
    h1.addAllU (fl := fl) ((hal e).2 (.inr rfl)) p w.counter 0 cs
  refine ⟨out, w', A', Q', pre, post, ?_, h3, h4, hfresh, ?_, h5, h6, ?_, h8⟩
  · simp only [World.addEntityU, hg, bind, Except.bind, h2]
  · intro x; rw [h3]; exact hal x
  · intro k; rw [h7, h.look_fresh k hfresh]

theorem bulkInsert_tabF {s : SparseSet V} {a : Sto V} {L} (h : Abs False s a L) {start : Nat} {vs : List V}
    (hne : vs ≠ []) (hm : start + vs.length ≤ EId.INDEX_MASK)
    (hr : ∀ i r, a.rows i = some r → i < start) (stamp : Nat) :
    ∃ s' L', s.bulkInsert ((List.range vs.length).map fun k => ⟨start + k, 0⟩) vs stamp = .ok s' ∧
      Abs False s' (StoSpec.step a (.bulk start stamp vs)) L' := by
  have hL : ∀ c ∈ L, c.id.idx < start := by
    intro c hc
    refine hr c.id.idx c.toRow ?_
    rw [h.rows, (SparseSet.cellAt_some h.ok).2 ⟨hc, rfl⟩]; rfl
  obtain ⟨sp', h1, _⟩ := SparseSet.bulkInsert_ok (s := s) h.ok start stamp vs hne hm hL
  rw [← h.shape] at h1
  have hd : s.dense = L.map (·.id) := congrArg SparseSet.dense h.shape
  have hst : StoSpec.Step s (.bulk start stamp vs) _ := .bulk (by
    intro e he
    rw [hd] at he
    obtain ⟨c, hc, rfl⟩ := List.mem_map.1 he
    exact hL c hc) hm h1
  obtain ⟨L', hL'⟩ := SparseSet.abs_step (Q := False) h hst (fun q => q) (fun q => q.elim)
  exact ⟨_, L', h1, hL'⟩

theorem Sound.bulkCols {w : World V} {A : Nat → Option (Sto V)} {Q : List Nat} {I : List EId}
    (h : Sound w A Q I) {start n : Nat} (hn : 0 < n) (hm : start + n ≤ EId.INDEX_MASK)
    (hal : ∀ i, i < n → (⟨start + i, 0⟩ : EId) ∈ I) (stamp : Nat) (cols : List (Nat × List V))
    (hlen : ∀ c ∈ cols, c.2.length = n) (hnd : (cols.map Prod.fst).Nodup)
    (hrows : ∀ k ∈ cols.map Prod.fst, ∀ a i r, A k = some a → a.rows i = some r → i < start) :
    ∃ w' A', bulkCols fl ((List.range n).map fun k => ⟨start + k, 0⟩) stamp cols w = .ok w' ∧
      w'.ents = w.ents ∧ w'.counter = w.counter ∧ Sound w' A' Q I ∧
      ∀ k x, look A' k x = (colAt cols start k x).or (look A k x) := by
  induction cols generalizing w A with
  | nil => exact ⟨w, A, rfl, rfl, rfl, h, fun k x => rfl⟩
  | cons c cols ih =>
    obtain ⟨j, vs⟩ := c
    have hvs : vs.length = n := hlen (j, vs) List.mem_cons_self
    obtain ⟨L, hL⟩ := h.stoOr (fl := fl) j
    have hr : ∀ i r, (tabOr fl A j).rows i = some r → i < start := by
      intro i r hr
      unfold tabOr at hr
      cases hA : A j with
      | none => rw [hA] at hr; cases hr
      | some a => rw [hA] at hr; exact hrows j (by simp) a i r hA hr
    obtain ⟨s', L', hb, hs'⟩ := bulkInsert_tabF hL (vs := vs) (by rintro rfl; simp at hvs; omega)
      (by rw [hvs]; exact hm) hr stamp
    rw [hvs] at hb
    have hput := h.put j hs' (by
      intro i r hr'
      simp only [StoSpec.step] at hr'
      split at hr'
      · rename_i hi
        split at hr'
        · rename_i v hv
          cases hr'
          have := hal (i - start) (by
            have := SparseSet.getElem?_lt hv
            omega)
          rw [show start + (i - start) = i from by omega] at this
          exact this
        · exact h.tabOr_given (fl := fl) j i r hr'
      · exact h.tabOr_given (fl := fl) j i r hr')
    simp only [List.map_cons, List.nodup_cons] at hnd
    obtain ⟨w', A', h1, h2, h3, h4, h5⟩ := ih hput (fun c hc => hlen c (List.mem_cons_of_mem _ hc)) hnd.2 (by
      intro k hk a i r hA hr'
      unfold setTab at hA
      rw [if_neg (by rintro rfl; exact hnd.1 hk)] at hA
      exact hrows k (List.mem_cons_of_mem _ hk) a i r hA hr')
    refine ⟨w', A', ?_, h2, h3, h4, ?_⟩
    · simp only [World.bulkCols, hb, bind, Except.bind]; exact h1
    · intro k x
      rw [h5, look_setTab]
      by_cases hk : k = j
      · subst hk
        have hnone : colAt cols start k x = none := by
          unfold colAt
          rw [lookupK_none.2 hnd.1]; rfl
        rw [hnone]
        simp only [Option.none_or, if_true]
        rw [← lookup_tabOr (fl := fl) A k x]
        unfold colAt
        simp only [lookupK, if_true, Option.bind]
        unfold lookup StoSpec.step
        simp only
        by_cases hx : start ≤ x.idx
        · have hno : (tabOr fl A k).rows x.idx = none := by
            cases hrr : (tabOr fl A k).rows x.idx with
            | none => rfl
            | some r => have := hr _ r hrr; omega
          rw [if_pos hx, hno]
          cases hv : vs[x.idx - start]? with
          | none => simp
          | some v =>
            simp only [Option.bind, hx, and_true]
            by_cases hg : x.gen = 0
            · simp [hg]
            · have hg' : ¬ 0 = x.gen := fun h => hg h.symm
              simp [hg, hg']
        · rw [if_neg hx, if_neg (fun h => hx h.2)]
          simp
      · rw [if_neg hk]
        unfold colAt
        simp only [lookupK, if_neg hk]

/-- The index of an id handed out is below the length of the entity vector. -/
theorem EntOK.issued_lt {s : Entities} {Q : List Nat} {I : List EId} (h : EntOK s Q I) {e : EId}
    (he : e ∈ I) : e.idx < s.data.length := by
  obtain ⟨g, h1, _⟩ := h.bnd e he
  exact Entities.genAt_lt h1

theorem Sound.bulkAddEntity {w : World V} {A : Nat → Option (Sto V)} {Q : List Nat} {I : List EId}
    (h : Sound w A Q I) {cols : List (Nat × List V)} {n : Nat} (hn : 0 < n)
    (hlen : ∀ c ∈ cols, c.2.length = n) (hnd : (cols.map Prod.fst).Nodup)
    (hcap : w.ents.data.length + n < EId.maxIndex) :
    ∃ es w' A' Q', w.bulkAddEntity fl cols n = .ok (es, w') ∧
      es = (List.range n).map (fun i => ⟨w.ents.data.length + i, 0⟩) ∧
      Sound w' A' Q' (I ++ es) ∧
      (∀ x, w'.ents.isAlive x = true ↔ w.ents.isAlive x = true ∨ x ∈ es) ∧
      (∀ x ∈ es, x ∉ I) ∧
      ∀ k x, look A' k x = (colAt cols w.ents.data.length k x).or (look A k x) := by
  obtain ⟨es, hes⟩ := freshIds_total n w.ents.data.length (by omega)
  have hb : w.ents.bulkGenerate n = .ok (es, { w.ents with data := w.ents.data ++ es }) := by
    simp only [Entities.bulkGenerate, hes, bind, Except.bind]
  have hll : ∀ n start l, Entities.freshIds start n = .ok l → l.length = n := by
    intro n
    induction n with
    | zero => intro start l hl; cases hl; rfl
    | succ n ih =>
      intro start l hl
      unfold Entities.freshIds at hl
      rcases h1 : EId.new start with er | x
      · rw [h1] at hl; cases hl
      · rcases h2 : Entities.freshIds (start + 1) n with er | y
        · rw [h1, h2] at hl; cases hl
        · rw [h1, h2] at hl; cases hl; simp [ih _ _ h2]
  have hcap' : ({ w.ents with data := w.ents.data ++ es } : Entities).data.length < EId.maxIndex := by
    simp [hll _ _ _ hes]; omega
  obtain ⟨⟨Q', hE⟩, he, hdata, hal, hlt⟩ := ent_bulk h.ent hb hcap'
  have hmem : ∀ i, i < n → (⟨w.ents.data.length + i, 0⟩ : EId) ∈ I ++ es := by
    intro i hi
    refine List.mem_append_right _ ?_
    rw [he]
    exact List.mem_map.2 ⟨i, List.mem_range.2 hi, rfl⟩
  have h1 : Sound ⟨{ w.ents with data := w.ents.data ++ es }, w.stos,
      if decide (cols.length = 1) then w.counter + 1 else w.counter⟩ A Q' (I ++ es) :=
    ⟨hE, h.nodup, h.sto, fun k a ha i r hr => List.mem_append_left _ (h.given k a ha i r hr), fun x hx => by
      rcases (hal x).1 hx with hx | hx
      · exact List.mem_append_left _ (h.alive x hx)
      · exact List.mem_append_right _ hx⟩
  have hmm : EId.maxIndex < EId.INDEX_MASK := by decide
  obtain ⟨w', A', h2, h3, h4, h5, h6⟩ := h1.bulkCols (fl := fl) hn (start := w.ents.data.length) (by omega)
    hmem (if decide (cols.length = 1) then w.counter else 0) cols hlen hnd (by
      intro k _ a i r hA hr
      exact h.ent.issued_lt (h.given k a hA i r hr))
  refine ⟨es, w', A', Q', ?_, he, h5, ?_, ?_, h6⟩
  · rw [← he] at h2
    simp only [World.bulkAddEntity, hb, bind, Except.bind]
    rw [h2]
    simp only [h3, List.drop_left]
  · intro x; rw [h3]; exact hal x
  · intro x hx hxI
    have := h.ent.issued_lt hxI
    rw [he] at hx
    obtain ⟨i, _, rfl⟩ := List.mem_map.1 hx
    simp only at this
    omega

/-! ## Spawning and views -/

theorem Sound.spawn {w : World V} {A : Nat → Option (Sto V)} {Q : List Nat} {I : List EId}
    (h : Sound w A Q I) {e : EId} (hv : Valid e) {b ents}
    (hs : w.ents.spawn e = .ok (b, ents)) (hcap : ents.data.length < EId.maxIndex) :
    ∃ Q', Sound { w with ents := ents } A Q' (I ++ if b then [e] else []) ∧
      (b = true → ∀ x, ents.isAlive x = true ↔ (w.ents.isAlive x = true ∧ x.idx ≠ e.idx) ∨ x = e) ∧
      (b = false → ents = w.ents) := by
  obtain ⟨⟨Q', hE⟩, ht, hf⟩ := ent_spawn h.ent hv hs hcap
  refine ⟨Q', ?_, ht, hf⟩
  cases b with
  | true =>
    refine h.ents (by simpa [EntSpec.Event.issued] using hE) (fun x hx => List.mem_append_left _ hx) ?_
    intro x hx
    rcases (ht rfl x).1 hx with hx | hx
    · exact List.mem_append_left _ (h.alive x hx.1)
    · rw [hx]; simp
  | false =>
    refine h.ents (by simpa [EntSpec.Event.issued] using hE) (fun x hx => List.mem_append_left _ hx) ?_
    intro x hx
    rw [hf rfl] at hx
    exact List.mem_append_left _ (h.alive x hx)

theorem removedSilently_shrinks (e : EId) (c : Option V) (a : Sto V) :
    Shrinks a (StoSpec.removedSilently a e c) := shrinks_rows (delTab_shrinks e 0 a) rfl

theorem retainedAll_shrinks (now : Nat) (calls : List (StoSpec.Call V)) (a : Sto V) :
    Shrinks a (StoSpec.retainedAll a now calls) := by
  unfold StoSpec.retainedAll
  induction calls generalizing a with
  | nil => exact Shrinks.refl a
  | cons c calls ih =>
    exact (step_shrinks (ev := .retained now [c]) trivial a).trans (ih _)

theorem pstep_shrinks {ev : StoSpec.PEvent V} (hev : WSpec.PInsertsNothing ev) (a : Sto V) :
    Shrinks a (StoSpec.pstep a ev) := by
  cases ev with
  | done ev => exact step_shrinks hev a
  | cut c =>
    cases c with
    | insert => exact hev.elim
    | remove e c u => exact removedSilently_shrinks e c a
    | delete e now c u =>
      cases u with
      | hook => exact removedSilently_shrinks e c a
      | dtor => exact delTab_shrinks e now a
      | closure => exact delTab_shrinks e now a
      | refused => exact delTab_shrinks e now a
    | apply ws now => exact step_shrinks (ev := .wrote ws now) trivial a
    | refused => exact Shrinks.refl a
    | sort => exact Shrinks.refl a
    | clear now rows => exact step_shrinks (ev := .cleared now rows) trivial a
    | retain now calls last u =>
      cases u with
      | closure =>
        exact (retainedAll_shrinks now calls a).trans
          (step_shrinks (ev := .retained now [{ last with keep := true }]) trivial _)
      | hook =>
        exact shrinks_rows ((retainedAll_shrinks now calls a).trans
          (step_shrinks (ev := .retained now [last]) trivial _)) rfl
      | dtor => exact retainedAll_shrinks now _ a
      | refused => exact retainedAll_shrinks now _ a

theorem Sound.view {w : World V} {A : Nat → Option (Sto V)} {Q : List Nat} {I : List EId}
    (h : Sound w A Q I) {k : Nat} {s s' : SparseSet V} {ev : StoSpec.PEvent V}
    (hl : lookupK w.stos k = some s) (hs : StoSpec.PStep s ev s') (hev : WSpec.PInsertsNothing ev) :
    ∃ A', Sound (w.put k s') A' Q I ∧ ∀ j x, j ≠ k → look A' j x = look A j x := by
  have hk := h.sto k
  rw [hl] at hk
  generalize hA : A k = ao at hk
  cases hk with
  | @some _ a L ha =>
    obtain ⟨L', hL'⟩ := SparseSet.abs_pstep (Q := False) ha hs (fun q => q) (fun q => q.elim)
    refine ⟨_, h.put k hL' ((pstep_shrinks hev a).given (h.given k a hA)), ?_⟩
    intro j x hj
    rw [look_setTab, if_neg hj]

theorem Sound.viewAdd {w : World V} {A : Nat → Option (Sto V)} {Q : List Nat} {I : List EId}
    (h : Sound w A Q I) {k : Nat} {s s' : SparseSet V} (hl : lookupK w.stos k = some s) {e : EId}
    (he : e ∈ I) {v : V} {now : Nat} {hp dp : Bool} {out} (hs : s.insertU e v now hp dp = .ok (out, s')) :
    ∃ A', Sound (w.put k s') A' Q I ∧
      (∀ j x, (j ≠ k ∨ x.idx ≠ e.idx ∨ e.gen < x.gen) → look A' j x = look A j x) ∧
      (∀ u, out = .unwound u → (∀ j, look A' j e = look A j e) ∧ (u = .hook ∨ u = .dtor)) ∧
      (w.ents.isAlive e = true → ∀ r, out = .returned r → r ≠ .notInserted ∧ look A' k e = some v) := by
  have hk := h.sto k
  rw [hl] at hk
  generalize hA : A k = ao at hk
  cases hk with
  | @some _ a L ha =>
    obtain ⟨out', s1, b, L', h1, h2, h3, h4, h5, h6⟩ := insertU_tab ha (h.ent.valid_issued he) v now hp dp
    rw [hs] at h1
    cases h1
    have hlk : ∀ x, look A k x = lookup a.rows x := by
      intro x
      unfold look
      rw [hA]
      rfl
    refine ⟨_, h.put k h2 (insertU_given he (h.given k a hA) h3), ?_, ?_, ?_⟩
    · intro j x hj
      rw [look_setTab]
      split
      · rename_i hjk
        subst hjk
        rw [h4 x (hj.resolve_left (fun h => h rfl)), hlk]
      · rfl
    · intro u hu
      obtain ⟨k1, k2⟩ := h5 u hu
      refine ⟨fun j => ?_, k2⟩
      rw [look_setTab]
      split
      · rename_i hjk
        subst hjk
        rw [k1, hlk]
      · rfl
    · intro hal r hr
      rw [look_setTab, if_pos rfl]
      refine h6 ?_ r hr
      intro r' hr'
      exact h.ent.issued_le (h.given k a hA _ r' hr') hal rfl

theorem Sound.create {w : World V} {A : Nat → Option (Sto V)} {Q : List Nat} {I : List EId}
    (h : Sound w A Q I) (k : Nat) : ∃ A', Sound (w.create fl k) A' Q I ∧ ∀ j x, look A' j x = look A j x := by
  obtain ⟨L, hL⟩ := h.stoOr (fl := fl) k
  refine ⟨_, h.put k hL (h.tabOr_given (fl := fl) k), ?_⟩
  intro j x
  rw [look_setTab, lookup_tabOr]
  split
  · rename_i hj; rw [hj]
  · rfl

theorem addAllU_ents (p : Panics) (e : EId) (now : Nat) (cs : List (Nat × Option V)) :
    ∀ (i : Nat) {w w' : World V} {out}, addAllU fl p e now i cs w = .ok (out, w') → w'.ents = w.ents := by
  induction cs with
  | nil => intro i w w' out h; cases h; rfl
  | cons c cs ih =>
    obtain ⟨k, c⟩ := c
    intro i w w' out h
    cases c with
    | none => exact ih i h
    | some v =>
      simp only [addAllU, bind, Except.bind] at h
      cases hi : (World.stoOr fl w k).insertU e v now (p i).1 (p i).2 with
      | error f => rw [hi] at h; cases h
      | ok q =>
        obtain ⟨o, s'⟩ := q
        rw [hi] at h
        cases o with
        | unwound u => cases h; rfl
        | returned r =>
          cases r with
          | notInserted => cases h; rfl
          | componentOverride old =>
            simp only at h
            split at h
            · cases h; rfl
            · rw [ih _ h]; rfl
          | inserted => simp only at h; rw [ih _ h]; rfl
          | otherComponentOverride => simp only at h; rw [ih _ h]; rfl

theorem addEntityU_inv {w : World V} {p cs e out w'} (h : w.addEntityU fl p cs = .ok (e, out, w')) :
    w.ents.generate = .ok (e, w'.ents) := by
  unfold World.addEntityU at h
  cases hg : w.ents.generate with
  | error f => rw [hg] at h; cases h
  | ok q =>
    rw [hg] at h
    simp only [bind, Except.bind] at h
    cases ha : addAllU fl p q.1 w.counter 0 cs { w.tick with ents := q.2 } with
    | error f => rw [ha] at h; cases h
    | ok r =>
      rw [ha] at h
      cases h
      rw [addAllU_ents _ _ _ _ _ ha]

/-! ## Between two worlds -/

theorem Sound.registerClone {w : World V} {A : Nat → Option (Sto V)} {Q : List Nat} {I : List EId}
    (h : Sound w A Q I) (k : Nat) :
    ∃ A', Sound (w.registerClone fl k) A' Q I ∧ ∀ j x, look A' j x = look A j x := by
  obtain ⟨L, hL⟩ := h.stoOr (fl := fl) k
  refine ⟨_, h.put k (SparseSet.abs_canClone hL true) (h.tabOr_given (fl := fl) k), ?_⟩
  intro j x
  rw [look_setTab, lookup_tabOr]
  split
  · rename_i hj; rw [hj]
  · rfl

theorem Sound.putOptU {o : World V} {B : Nat → Option (Sto V)} {Q : List Nat} {J : List EId}
    (h : Sound o B Q J) {dst : EId} (hd : o.ents.isAlive dst = true) (p : Bool × Bool) (k nowO : Nat)
    (c : Option V) :
    ∃ out o' B', putOptU fl p o k dst nowO c = .ok (out, o') ∧ o'.ents = o.ents ∧ Sound o' B' Q J ∧
      (out = .returned () ∨ ∃ u, out = .unwound u ∧ (u = .hook ∨ u = .dtor)) ∧
      (∀ j x, (j ≠ k ∨ x.idx ≠ dst.idx) → look B' j x = look B j x) ∧
      (look B' k dst = c.or (look B k dst) ∨ out ≠ .returned () ∧ look B' k dst = look B k dst) := by
  cases c with
  | none => exact ⟨_, o, B, rfl, rfl, h, .inl rfl, fun _ _ _ => rfl, .inl rfl⟩
  | some v =>
    obtain ⟨L, hL⟩ := h.stoOr (fl := fl) k
    obtain ⟨out, s', b, L', hi, hb, hg, hx, hu, hr⟩ := insertU_tab hL (h.ent.valid hd) v nowO p.1 p.2
    have hput := h.put k hb (insertU_given (h.alive dst hd) (h.tabOr_given (fl := fl) k) hg)
    have hothers : ∀ j x, (j ≠ k ∨ x.idx ≠ dst.idx) → look (setTab B k b) j x = look B j x := by
      intro j x hjx
      rw [look_setTab]
      split
      · rename_i hj
        subst hj
        rw [hx x (.inl (hjx.resolve_left (fun h => h rfl))), lookup_tabOr]
      · rfl
    have hit : ∀ y, lookup b.rows dst = y → look (setTab B k b) k dst = y := by
      intro y hy
      rw [look_setTab, if_pos rfl, hy]
    cases out with
    | unwound u =>
      refine ⟨.unwound u, o.put k s', setTab B k b, ?_, rfl, hput, .inr ⟨u, rfl, (hu u rfl).2⟩, hothers,
        .inr ⟨(fun h => by cases h), ?_⟩⟩
      · simp only [World.putOptU, hi, bind, Except.bind]
      · refine hit _ ?_
        rw [(hu u rfl).1, lookup_tabOr]
    | returned r =>
      obtain ⟨hni, hv⟩ := hr (fun r hr => h.row_le (fl := fl) k hd hr) r rfl
      cases r with
      | notInserted => exact absurd rfl hni
      | componentOverride old =>
        refine ⟨if p.2 then .unwound .dtor else .returned (), o.put k s', setTab B k b, ?_, rfl, hput, ?_, hothers,
          .inl (hit _ hv)⟩
        · simp only [World.putOptU, hi, bind, Except.bind]
        · cases p.2
          · exact .inl rfl
          · exact .inr ⟨_, rfl, .inr rfl⟩
      | inserted =>
        refine ⟨.returned (), o.put k s', setTab B k b, ?_, rfl, hput, .inl rfl, hothers, .inl (hit _ hv)⟩
        simp only [World.putOptU, hi, bind, Except.bind]
      | otherComponentOverride =>
        refine ⟨.returned (), o.put k s', setTab B k b, ?_, rfl, hput, .inl rfl, hothers, .inl (hit _ hv)⟩
        simp only [World.putOptU, hi, bind, Except.bind]

/-- What the other world has under `dst` after a loop over storages: those of `moved` are done, at most one
more, `cut`, was at work. `C k` is the component that goes over. -/
def Handed (C : Nat → Option V) (moved cut : List Nat) (k : Nat) (old new : Option V) : Prop :=
  (k ∈ moved → new = (C k).or old) ∧ (k ∈ cut → new = (C k).or old ∨ new = old) ∧
  (k ∉ moved → k ∉ cut → new = old)

theorem moveLoopU_ok {src dst : EId} (hv : Valid src) (p q : Panics) (now nowO : Nat)
    (l : List (Nat × SparseSet V)) (A : Nat → Option (Sto V)) (hn : (l.map Prod.fst).Nodup)
    (hA : ∀ k, StoF (lookupK l k) (A k)) {o : World V} {B : Nat → Option (Sto V)} {Q : List Nat} {J : List EId}
    (ho : Sound o B Q J) (hd : o.ents.isAlive dst = true) :
    ∃ out l' o', ∃ A' B' : Nat → Option (Sto V), ∃ moved cut post : List Nat,
      moveLoopU fl p q src dst now nowO l o = .ok (out, l', o') ∧
      l'.map Prod.fst = l.map Prod.fst ∧ l.map Prod.fst = moved ++ cut ++ post ∧ cut.length ≤ 1 ∧
      (∀ k, StoF (lookupK l' k) (A' k)) ∧ o'.ents = o.ents ∧ Sound o' B' Q J ∧
      (out = .returned () ∧ cut = [] ∧ post = [] ∨ ∃ u, out = .unwound u) ∧
      (∀ k, k ∉ moved ++ cut → A' k = A k) ∧
      (∀ k, k ∈ moved ++ cut → ∃ a b, A k = some a ∧ A' k = some b ∧ b.rows = (delTab src now a).rows) ∧
      (∀ k, Handed (fun k => look A k src) moved cut k (look B k dst) (look B' k dst)) ∧
      (∀ k x, x.idx ≠ dst.idx → look B' k x = look B k x) := by
  induction l generalizing A o B with
  | nil =>
    exact ⟨_, [], o, A, B, [], [], [], rfl, rfl, rfl, by simp, hA, rfl, ho, .inl ⟨rfl, rfl, rfl⟩,
      fun _ _ => rfl, (fun k hk => by simp at hk), fun k => ⟨(fun h => by simp at h), (fun h => by simp at h),
        fun _ _ => rfl⟩, fun _ _ _ => rfl⟩
  | cons x l ih =>
    obtain ⟨k, s⟩ := x
    have hk := hA k
    simp only [lookupK, if_true] at hk
    generalize hAk : A k = ao at hk
    simp only [List.map_cons, List.nodup_cons] at hn
    cases hk with
    | @some _ a L ha =>
      obtain ⟨out, s', b, L', h1, h2, h3, h4⟩ := dynRemoveU_tab ha hv now (p k).1 (p k).2
      have htail : ∀ j, j ≠ k → lookupK ((k, s) :: l) j = lookupK l j := by
        intro j hj; simp only [lookupK, if_neg hj]
      have hstop : ∀ j, StoF (lookupK ((k, s') :: l) j) (setTab A k b j) := by
        intro j
        unfold setTab
        by_cases hj : j = k
        · rw [if_pos hj]
          simp only [lookupK, if_pos hj]
          exact .some h2
        · rw [if_neg hj]
          have := hA j
          rw [htail j hj] at this
          simp only [lookupK, if_neg hj]
          exact this
      have hstop1 : ∀ j, j ∉ [] ++ [k] → setTab A k b j = A j := by
        intro j hj
        unfold setTab
        rw [if_neg (by simpa using hj)]
      have hstop2 : ∀ j, j ∈ [] ++ [k] → ∃ a b', A j = some a ∧ setTab A k b j = some b' ∧
          b'.rows = (delTab src now a).rows := by
        intro j hj
        have hj : j = k := by simpa using hj
        subst hj
        exact ⟨a, b, hAk, by unfold setTab; rw [if_pos rfl], h3⟩
      cases out with
      | unwound u =>
        refine ⟨.unwound u, (k, s') :: l, o, setTab A k b, B, [], [k], l.map Prod.fst, ?_, rfl, rfl, by simp,
          hstop, rfl, ho, .inr ⟨u, rfl⟩, hstop1, hstop2, ?_, fun _ _ _ => rfl⟩
        · simp only [moveLoopU, h1, bind, Except.bind]
        · intro j
          exact ⟨(fun h => by simp at h), fun _ => .inr rfl, fun _ _ => rfl⟩
      | returned c =>
        have hc : c = look A k src := by
          rw [h4 c rfl]; unfold look; rw [hAk]; rfl
        subst hc
        obtain ⟨out, o1, B1, g1, g2, g3, g4, g5, g6⟩ := ho.putOptU (fl := fl) hd (q k) k nowO (look A k src)
        cases out with
        | unwound u =>
          refine ⟨.unwound u, (k, s') :: l, o1, setTab A k b, B1, [], [k], l.map Prod.fst, ?_, rfl, rfl, by simp,
            hstop, g2, g3, .inr ⟨u, rfl⟩, hstop1, hstop2, ?_, fun j x hx => g5 j x (.inr hx)⟩
          · simp only [moveLoopU, h1, bind, Except.bind, g1]
          · intro j
            refine ⟨(fun h => by simp at h), ?_, ?_⟩
            · intro hj
              have hj : j = k := by simpa using hj
              subst hj
              exact g6.imp id And.right
            · intro _ hj
              exact g5 j dst (.inl (by simpa using hj))
        | returned r =>
          have g6 : look B1 k dst = (look A k src).or (look B k dst) := g6.resolve_right (fun h => h.1 rfl)
          obtain ⟨out, l', o', A', B', moved, cut, post, f1, f2, f3, f4, f5, f6, f7, f8, f9, f10, f11, f12⟩ :=
            ih (fun j => if j = k then none else A j) hn.2 (by
              intro j
              by_cases hj : j = k
              · rw [if_pos hj, hj, lookupK_none.2 hn.1]; exact .none
              · rw [if_neg hj]
                have := hA j
                rw [htail j hj] at this
                exact this) g3 (by rw [g2]; exact hd)
          have hkm : k ∉ moved ++ cut := by
            intro hm
            apply hn.1
            rw [f3]
            exact List.mem_append_left _ hm
          have hkm1 : k ∉ moved := fun h => hkm (List.mem_append_left _ h)
          have hkm2 : k ∉ cut := fun h => hkm (List.mem_append_right _ h)
          refine ⟨out, (k, s') :: l', o', setTab A' k b, B', k :: moved, cut, post, ?_, ?_, ?_, f4, ?_,
            f6.trans g2, f7, f8, ?_, ?_, ?_, ?_⟩
          · simp only [moveLoopU, h1, bind, Except.bind, g1, f1]
          · simp [f2]
          · simp [f3]
          · intro j
            unfold setTab
            by_cases hj : j = k
            · rw [if_pos hj]
              simp only [lookupK, if_pos hj]
              exact .some h2
            · rw [if_neg hj]
              simp only [lookupK, if_neg hj]
              exact f5 j
          · intro j hj
            rw [List.cons_append, List.mem_cons] at hj
            have hjk : j ≠ k := fun h => hj (.inl h)
            unfold setTab
            rw [if_neg hjk, f9 j (fun h => hj (.inr h)), if_neg hjk]
          · intro j hj
            by_cases hjk : j = k
            · subst hjk
              exact ⟨a, b, hAk, by unfold setTab; rw [if_pos rfl], h3⟩
            · rw [List.cons_append, List.mem_cons] at hj
              obtain ⟨a', b', k1, k2, k3⟩ := f10 j (hj.resolve_left hjk)
              rw [if_neg hjk] at k1
              exact ⟨a', b', k1, by unfold setTab; rw [if_neg hjk]; exact k2, k3⟩
          · intro j
            obtain ⟨e1, e2, e3⟩ := f11 j
            by_cases hjk : j = k
            · subst hjk
              refine ⟨fun _ => ?_, fun h => absurd h hkm2, fun h => absurd List.mem_cons_self h⟩
              rw [e3 hkm1 hkm2, g6]
            · have hl : look (fun j => if j = k then none else A j) j src = look A j src := by
                unfold look; simp only [if_neg hjk]
              simp only [hl, g5 j dst (.inl hjk)] at e1 e2 e3
              refine ⟨fun h => e1 ((List.mem_cons.1 h).resolve_left hjk), e2, fun h => e3 (fun h' => h ?_)⟩
              exact List.mem_cons_of_mem _ h'
          · intro j x hx
            rw [f12 j x hx, g5 j x (.inr hx)]

/-- The loop between two worlds. -/
theorem Sound.moveLoopU {w : World V} {A : Nat → Option (Sto V)} {Q : List Nat} {I : List EId}
    (h : Sound w A Q I) {o : World V} {B : Nat → Option (Sto V)} {Q2 : List Nat} {J : List EId}
    (ho : Sound o B Q2 J) {src dst : EId} (hv : Valid src) (hd : o.ents.isAlive dst = true)
    (p q : Panics) (now nowO : Nat) :
    ∃ out l' o', ∃ A' B' : Nat → Option (Sto V), ∃ moved cut post : List Nat,
      World.moveLoopU fl p q src dst now nowO w.stos o = .ok (out, l', o') ∧
      w.stos.map Prod.fst = moved ++ cut ++ post ∧ cut.length ≤ 1 ∧
      Sound { w with stos := l' } A' Q I ∧ o'.ents = o.ents ∧ Sound o' B' Q2 J ∧
      (out = .returned () ∧ cut = [] ∧ post = [] ∨ ∃ u, out = .unwound u) ∧
      (∀ k x, look A' k x = if k ∈ moved ++ cut ∧ Hit src x then none else look A k x) ∧
      (∀ k, Handed (fun k => look A k src) moved cut k (look B k dst) (look B' k dst)) ∧
      (∀ k x, x.idx ≠ dst.idx → look B' k x = look B k x) := by
  obtain ⟨out, l', o', A', B', moved, cut, post, f1, f2, f3, f4, f5, f6, f7, f8, f9, f10, f11, f12⟩ :=
    moveLoopU_ok (fl := fl) hv p q now nowO w.stos A h.nodup h.sto ho hd
  refine ⟨out, l', o', A', B', moved, cut, post, f1, f3, f4,
    ⟨h.ent, by rw [f2]; exact h.nodup, f5, ?_, h.alive⟩, f6, f7, f8, ?_, f11, f12⟩
  · intro k b hb
    by_cases hk : k ∈ moved ++ cut
    · obtain ⟨a, b', k1, k2, k3⟩ := f10 k hk
      rw [hb] at k2
      cases k2
      exact (shrinks_rows (delTab_shrinks src now a) k3).given (h.given k a k1)
    · rw [f9 k hk] at hb
      exact h.given k b hb
  · intro k x
    by_cases hk : k ∈ moved ++ cut
    · obtain ⟨a, b', k1, k2, k3⟩ := f10 k hk
      unfold look
      rw [k1, k2]
      simp only [Option.bind]
      rw [k3, lookup_delTab']
      by_cases hh : Hit src x
      · rw [if_pos (show x.idx = src.idx ∧ x.gen ≤ src.gen from hh), if_pos ⟨hk, hh⟩]
      · rw [if_neg (show ¬ (x.idx = src.idx ∧ x.gen ≤ src.gen) from hh), if_neg (fun h => hh h.2)]
    · rw [if_neg (fun h => hk h.1)]
      unfold look
      rw [f9 k hk]

theorem Sound.cloneCompLoopU {o : World V} {B : Nat → Option (Sto V)} {Q2 : List Nat} {J : List EId}
    (ho : Sound o B Q2 J) {src dst : EId} (hd : o.ents.isAlive dst = true) (cl : Nat → V → V)
    (c : Nat → Bool) (q : Panics) (nowO : Nat) (C : Nat → Option V) (l : List (Nat × SparseSet V))
    (hn : (l.map Prod.fst).Nodup) (hC : ∀ x ∈ l, cloneOf cl src x.1 x.2 = .ok (C x.1)) :
    ∃ out o', ∃ B' : Nat → Option (Sto V), ∃ moved cut post : List Nat,
      World.cloneCompLoopU fl cl c q src dst nowO l o = .ok (out, o') ∧
      l.map Prod.fst = moved ++ cut ++ post ∧ cut.length ≤ 1 ∧ o'.ents = o.ents ∧ Sound o' B' Q2 J ∧
      (out = .returned () ∧ cut = [] ∧ post = [] ∨ ∃ u, out = .unwound u) ∧
      (∀ k, Handed C moved cut k (look B k dst) (look B' k dst)) ∧
      (∀ k x, x.idx ≠ dst.idx → look B' k x = look B k x) := by
  induction l generalizing o B with
  | nil =>
    exact ⟨_, o, B, [], [], [], rfl, rfl, by simp, rfl, ho, .inl ⟨rfl, rfl, rfl⟩,
      fun k => ⟨(fun h => by simp at h), (fun h => by simp at h), fun _ _ => rfl⟩, fun _ _ _ => rfl⟩
  | cons x l ih =>
    obtain ⟨k, s⟩ := x
    have hk := hC (k, s) List.mem_cons_self
    have hC' : ∀ x ∈ l, cloneOf cl src x.1 x.2 = .ok (C x.1) := fun x hx => hC x (List.mem_cons_of_mem _ hx)
    simp only at hk
    simp only [List.map_cons, List.nodup_cons] at hn
    -- the rest of the loop, from a world in which storage `k` is done
    have hnext : ∀ {o1 : World V} {B1 : Nat → Option (Sto V)}, o1.ents = o.ents → Sound o1 B1 Q2 J →
        (∀ j x, (j ≠ k ∨ x.idx ≠ dst.idx) → look B1 j x = look B j x) →
        look B1 k dst = (C k).or (look B k dst) →
        World.cloneCompLoopU fl cl c q src dst nowO ((k, s) :: l) o =
          World.cloneCompLoopU fl cl c q src dst nowO l o1 →
        ∃ out o', ∃ B' : Nat → Option (Sto V), ∃ moved cut post : List Nat,
          World.cloneCompLoopU fl cl c q src dst nowO ((k, s) :: l) o = .ok (out, o') ∧
          k :: l.map Prod.fst = moved ++ cut ++ post ∧ cut.length ≤ 1 ∧ o'.ents = o.ents ∧ Sound o' B' Q2 J ∧
          (out = .returned () ∧ cut = [] ∧ post = [] ∨ ∃ u, out = .unwound u) ∧
          (∀ k, Handed C moved cut k (look B k dst) (look B' k dst)) ∧
          (∀ k x, x.idx ≠ dst.idx → look B' k x = look B k x) := by
      intro o1 B1 g2 g3 g5 g6 heq
      obtain ⟨out, o', B', moved, cut, post, f1, f3, f4, f6, f7, f8, f11, f12⟩ :=
        ih g3 (by rw [g2]; exact hd) hn.2 hC'
      have hkm : k ∉ moved ++ cut := by
        intro hm
        apply hn.1
        rw [f3]
        exact List.mem_append_left _ hm
      have hkm1 : k ∉ moved := fun h => hkm (List.mem_append_left _ h)
      have hkm2 : k ∉ cut := fun h => hkm (List.mem_append_right _ h)
      refine ⟨out, o', B', k :: moved, cut, post, ?_, ?_, f4, f6.trans g2, f7, f8, ?_, ?_⟩
      · rw [heq, f1]
      · simp [f3]
      · intro j
        obtain ⟨e1, e2, e3⟩ := f11 j
        by_cases hjk : j = k
        · subst hjk
          refine ⟨fun _ => ?_, fun h => absurd h hkm2, fun h => absurd List.mem_cons_self h⟩
          rw [e3 hkm1 hkm2, g6]
        · simp only [g5 j dst (.inl hjk)] at e1 e2 e3
          refine ⟨fun h => e1 ((List.mem_cons.1 h).resolve_left hjk), e2, fun h => e3 (fun h' => h ?_)⟩
          exact List.mem_cons_of_mem _ h'
      · intro j x hx
        rw [f12 j x hx, g5 j x (.inr hx)]
    cases hc : C k with
    | none =>
      rw [hc] at hk
      refine hnext rfl ho (fun _ _ _ => rfl) (by rw [hc]; rfl) ?_
      simp only [World.cloneCompLoopU, hk, bind, Except.bind]
    | some v =>
      rw [hc] at hk
      by_cases hck : c k = true
      · obtain ⟨B1, g3, g5⟩ := ho.create (fl := fl) k
        refine ⟨.unwound .closure, o.create fl k, B1, [], [k], l.map Prod.fst, ?_, rfl, by simp, rfl, g3,
          .inr ⟨_, rfl⟩, ?_, fun j x _ => g5 j x⟩
        · simp only [World.cloneCompLoopU, hk, bind, Except.bind]
          rw [if_pos hck]
        · intro j
          exact ⟨(fun h => by simp at h), fun _ => .inr (g5 j dst), fun _ _ => g5 j dst⟩
      · obtain ⟨out, o1, B1, g1, g2, g3, g4, g5, g6⟩ := ho.putOptU (fl := fl) hd (q k) k nowO (some v)
        cases out with
        | unwound u =>
          refine ⟨.unwound u, o1, B1, [], [k], l.map Prod.fst, ?_, rfl, by simp, g2, g3,
            .inr ⟨_, rfl⟩, ?_, fun j x hx => g5 j x (.inr hx)⟩
          · simp only [World.cloneCompLoopU, hk, bind, Except.bind]
            rw [if_neg hck]
            simp only [g1]
          · intro j
            refine ⟨(fun h => by simp at h), ?_, ?_⟩
            · intro hj
              have hj : j = k := by simpa using hj
              subst hj
              rw [hc]
              exact g6.imp id And.right
            · intro _ hj
              exact g5 j dst (.inl (by simpa using hj))
        | returned r =>
          refine hnext g2 g3 g5 (by rw [hc]; exact g6.resolve_right (fun h => h.1 rfl)) ?_
          simp only [World.cloneCompLoopU, hk, bind, Except.bind]
          rw [if_neg hck]
          simp only [g1]


theorem Handed.nothing {C : Nat → Option V} {k : Nat} (y : Option V) : Handed C [] [] k y y :=
  ⟨(fun h => by simp at h), (fun h => by simp at h), fun _ _ => rfl⟩

theorem Sound.room {w : World V} {A : Nat → Option (Sto V)} {Q : List Nat} {I : List EId}
    (h : Sound w A Q I) {e : EId} (he : w.ents.isAlive e = true) : e.idx + 1 < EId.maxIndex := by
  have h1 := h.ent.issued_lt (h.alive e he)
  have h2 := h.ent.inv.cap
  omega

/-- An id that is alive was handed out already. -/
theorem Sound.known {w : World V} {A : Nat → Option (Sto V)} {Q : List Nat} {I : List EId}
    (h : Sound w A Q I) (e : EId) : Sound w A Q (I ++ if w.isAlive e then [e] else []) := by
  have hsub : ∀ x ∈ I ++ (if w.isAlive e then [e] else []), x ∈ I := by
    intro x hx
    rcases List.mem_append.1 hx with hx | hx
    · exact hx
    · split at hx
      · rename_i ha
        rw [List.mem_singleton.1 hx]
        exact h.alive e ha
      · cases hx
  refine ⟨⟨h.ent.inv, fun x hx => h.ent.bnd x (hsub x hx), h.ent.gens⟩, h.nodup, h.sto, ?_, ?_⟩
  · exact fun k a ha i r hr => List.mem_append_left _ (h.given k a ha i r hr)
  · exact fun x hx => List.mem_append_left _ (h.alive x hx)

theorem Sound.moveEntityU {w : World V} {A : Nat → Option (Sto V)} {Q : List Nat} {I : List EId}
    (h : Sound w A Q I) {o : World V} {B : Nat → Option (Sto V)} {Q2 : List Nat} {J : List EId}
    (ho : Sound o B Q2 J) (e : EId) (hp : Bool) (p q : Panics) :
    ∃ out w' o', ∃ A' B' : Nat → Option (Sto V), ∃ Q' Q2', ∃ moved cut post : List Nat,
      w.moveEntityU fl hp p q o e = .ok (out, w', o') ∧
      Sound w' A' Q' I ∧ Sound o' B' Q2' (J ++ if o'.isAlive e then [e] else []) ∧
      (∀ x, x ≠ e → w'.isAlive x = w.isAlive x) ∧ (e.gen < 65533 → w'.isAlive e = false) ∧
      (w.isAlive e = false → out = .unwound .refused ∧ w' = w.tick ∧ o' = o.tick) ∧
      w.stos.map Prod.fst = moved ++ cut ++ post ∧ cut.length ≤ 1 ∧
      (out = .returned () ∧ cut = [] ∧ post = [] ∨ ∃ u, out = .unwound u) ∧
      (∀ k x, look A' k x = if k ∈ moved ++ cut ∧ Hit e x then none else look A k x) ∧
      (∀ k, Handed (fun k => look A k e) moved cut k (look B k e) (look B' k e)) ∧
      (∀ k x, x.idx ≠ e.idx → look B' k x = look B k x) ∧
      (o' = o.tick ∧ moved ++ cut = [] ∧ (∃ u, out = .unwound u) ∨
        ∀ x, o'.isAlive x = true ↔ (o.isAlive x = true ∧ x.idx ≠ e.idx) ∨ x = e) := by
  obtain ⟨out, s', Q', h1, h2, h3, h4, h5, h6, h7⟩ := ent_deleteU h.ent h.alive e hp
  have hw : Sound { w.tick with ents := s' } A Q' I := h.tick.ents h2 (fun _ h => h) h3
  have hno : ∀ k x, look A k x = if k ∈ ([] : List Nat) ++ [] ∧ Hit e x then none else look A k x := by
    intro k x; rw [if_neg (fun h => by simp at h)]
  cases ha : w.isAlive e with
  | false =>
    obtain ⟨rfl, rfl⟩ := h6 ha
    refine ⟨.unwound .refused, w.tick, o.tick, A, B, Q', Q2, [], [], w.stos.map Prod.fst, ?_, hw, ho.tick.known e, h4, h5,
      fun _ => ⟨rfl, rfl, rfl⟩, rfl, by simp, .inr ⟨_, rfl⟩, hno, fun k => Handed.nothing _, fun _ _ _ => rfl,
      .inl ⟨rfl, rfl, _, rfl⟩⟩
    simp only [World.moveEntityU, h1, bind, Except.bind]
    rfl
  | true =>
    rcases h7 ha with rfl | rfl
    · obtain ⟨b, s2, hs, hcap⟩ := spawn_total' ho.ent (h.ent.valid ha) (h.room ha)
      obtain ⟨Q2', g1, g2, g3⟩ := ho.tick.spawn (h.ent.valid ha) hs hcap
      cases b with
      | false =>
        have := g3 rfl
        subst this
        refine ⟨.unwound .refused, { w.tick with ents := s' }, o.tick, A, B, Q', Q2, [], [], w.stos.map Prod.fst,
          ?_, hw, ho.tick.known e, h4, h5, (fun h => by cases h), rfl, by simp, .inr ⟨_, rfl⟩, hno, fun k => Handed.nothing _,
          fun _ _ _ => rfl, .inl ⟨rfl, rfl, _, rfl⟩⟩
        simp only [World.moveEntityU, h1, bind, Except.bind, hs]
        rfl
      | true =>
        have g1' : Sound { o.tick with ents := s2 } B Q2' (J ++ [e]) := g1
        have hal : s2.isAlive e = true := (g2 rfl e).2 (.inr rfl)
        obtain ⟨out, l', o', A', B', moved, cut, post, f1, f2, f3, f4, f5, f6, f7, f8, f9, f10⟩ :=
          hw.moveLoopU (fl := fl) g1' (h.ent.valid ha) hal p q w.counter o.counter
        have hal' : o'.isAlive e = true := by unfold World.isAlive; rw [f5]; exact hal
        refine ⟨out, { w.tick with ents := s', stos := l' }, o', A', B', Q', Q2', moved, cut, post, ?_, f4, ?_, h4, h5,
          (fun h => by cases h), f2, f3, f7, f8, f9, f10, .inr ?_⟩
        · have f1' : World.moveLoopU fl p q e e w.counter o.counter w.stos { o.tick with ents := s2 } =
            .ok (out, l', o') := f1
          simp only [World.moveEntityU, h1, bind, Except.bind, hs, if_true, f1']
        · rw [if_pos hal']; exact f6
        · intro x
          unfold World.isAlive
          rw [f5]
          exact g2 rfl x
    · refine ⟨.unwound .hook, { w.tick with ents := s' }, o.tick, A, B, Q', Q2, [], [], w.stos.map Prod.fst,
        ?_, hw, ho.tick.known e, h4, h5, (fun h => by cases h), rfl, by simp, .inr ⟨_, rfl⟩, hno, fun k => Handed.nothing _,
        fun _ _ _ => rfl, .inl ⟨rfl, rfl, _, rfl⟩⟩
      simp only [World.moveEntityU, h1, bind, Except.bind]

theorem Sound.moveComponentsU {w : World V} {A : Nat → Option (Sto V)} {Q : List Nat} {I : List EId}
    (h : Sound w A Q I) {o : World V} {B : Nat → Option (Sto V)} {Q2 : List Nat} {J : List EId}
    (ho : Sound o B Q2 J) (src dst : EId) (p q : Panics) :
    ∃ out w' o', ∃ A' B' : Nat → Option (Sto V), ∃ moved cut post : List Nat,
      w.moveComponentsU fl p q o src dst = .ok (out, w', o') ∧ w'.ents = w.ents ∧ o'.ents = o.ents ∧
      Sound w' A' Q I ∧ Sound o' B' Q2 J ∧
      (w.isAlive src = false ∨ o.isAlive dst = false → out = .unwound .refused ∧ w' = w.tick ∧ o' = o.tick) ∧
      w.stos.map Prod.fst = moved ++ cut ++ post ∧ cut.length ≤ 1 ∧
      (out = .returned () ∧ cut = [] ∧ post = [] ∨ ∃ u, out = .unwound u) ∧
      (∀ k x, look A' k x = if k ∈ moved ++ cut ∧ Hit src x then none else look A k x) ∧
      (∀ k, Handed (fun k => look A k src) moved cut k (look B k dst) (look B' k dst)) ∧
      (∀ k x, x.idx ≠ dst.idx → look B' k x = look B k x) := by
  by_cases hb : w.ents.isAlive src = true ∧ o.ents.isAlive dst = true
  · obtain ⟨out, l', o', A', B', moved, cut, post, f1, f2, f3, f4, f5, f6, f7, f8, f9, f10⟩ :=
      h.tick.moveLoopU (fl := fl) ho.tick (h.ent.valid hb.1) hb.2 p q w.counter o.counter
    refine ⟨out, { w.tick with stos := l' }, o', A', B', moved, cut, post, ?_, rfl, f5, f4, f6, ?_, f2, f3, f7,
      f8, f9, f10⟩
    · have f1' : World.moveLoopU fl p q src dst w.counter o.counter w.stos o.tick = .ok (out, l', o') := f1
      simp only [World.moveComponentsU, hb.1, hb.2, if_true, f1', bind, Except.bind]
    · intro hn
      unfold World.isAlive at hn
      rw [hb.1, hb.2] at hn
      rcases hn with hn | hn <;> cases hn
  · refine ⟨.unwound .refused, w.tick, o.tick, A, B, [], [], w.stos.map Prod.fst, ?_, rfl, rfl, h.tick, ho.tick,
      fun _ => ⟨rfl, rfl, rfl⟩, rfl, by simp, .inr ⟨_, rfl⟩, ?_, fun k => Handed.nothing _, fun _ _ _ => rfl⟩
    · unfold World.moveComponentsU
      by_cases h1 : w.ents.isAlive src = true
      · rw [if_pos h1, if_neg (fun h2 => hb ⟨h1, h2⟩)]
      · rw [if_neg h1]
    · intro k x; rw [if_neg (fun h => by simp at h)]

/-- What `clone_component_to` reads. -/
theorem Sound.cloneOf {w : World V} {A : Nat → Option (Sto V)} {Q : List Nat} {I : List EId}
    (h : Sound w A Q I) (cl : Nat → V → V) {src : EId} (hv : src.gen < 65535) :
    ∃ C : Nat → Option V, (∀ x ∈ w.stos, World.cloneOf cl src x.1 x.2 = .ok (C x.1)) ∧
      (∀ k, (∃ s, lookupK w.stos k = some s ∧ s.canClone = true) → C k = (look A k src).map (cl k)) ∧
      (∀ k, (¬ ∃ s, lookupK w.stos k = some s ∧ s.canClone = true) → C k = none) := by
  refine ⟨fun k => match lookupK w.stos k with
    | some s => if s.canClone then (look A k src).map (cl k) else none
    | none => none, ?_, ?_, ?_⟩
  · intro x hx
    have hl : lookupK w.stos x.1 = some x.2 := lookupK_of_mem h.nodup hx
    have hs := h.sto x.1
    simp only [hl]
    rw [hl] at hs
    unfold look
    generalize A x.1 = ao at hs
    cases hs with
    | some ha =>
      unfold World.cloneOf
      split
      · simp only [ha.get hv, bind, Except.bind]
        rfl
      · rfl
  · rintro k ⟨s, h1, h2⟩
    simp only [h1, h2, if_true]
  · intro k hk
    simp only
    split
    · rename_i s hs
      rw [if_neg (fun h => hk ⟨s, hs, h⟩)]
    · rfl

theorem Sound.cloneEntityToU {w : World V} {A : Nat → Option (Sto V)} {Q : List Nat} {I : List EId}
    (h : Sound w A Q I) {o : World V} {B : Nat → Option (Sto V)} {Q2 : List Nat} {J : List EId}
    (ho : Sound o B Q2 J) (e : EId) (cl : Nat → V → V) (c : Nat → Bool) (q : Panics) {C : Nat → Option V}
    (hC : ∀ x ∈ w.stos, World.cloneOf cl e x.1 x.2 = .ok (C x.1)) :
    ∃ out o', ∃ B' : Nat → Option (Sto V), ∃ Q2', ∃ moved cut post : List Nat,
      w.cloneEntityToU fl cl c q o e = .ok (out, o') ∧
      Sound o' B' Q2' (J ++ if o'.isAlive e then [e] else []) ∧
      w.stos.map Prod.fst = moved ++ cut ++ post ∧ cut.length ≤ 1 ∧
      (out = .returned () ∧ cut = [] ∧ post = [] ∨ ∃ u, out = .unwound u) ∧
      (∀ k, Handed C moved cut k (look B k e) (look B' k e)) ∧
      (∀ k x, x.idx ≠ e.idx → look B' k x = look B k x) ∧
      (o' = o.tick ∧ moved ++ cut = [] ∧ out = .unwound .refused ∨
        w.isAlive e = true ∧
        ∀ x, o'.isAlive x = true ↔ (o.isAlive x = true ∧ x.idx ≠ e.idx) ∨ x = e) := by
  by_cases ha : w.ents.isAlive e = true
  · obtain ⟨b, s2, hs, hcap⟩ := spawn_total' ho.ent (h.ent.valid ha) (h.room ha)
    obtain ⟨Q2', g1, g2, g3⟩ := ho.tick.spawn (h.ent.valid ha) hs hcap
    cases b with
    | false =>
      have := g3 rfl
      subst this
      refine ⟨.unwound .refused, o.tick, B, Q2, [], [], w.stos.map Prod.fst, ?_, ho.tick.known e, rfl, by simp,
        .inr ⟨_, rfl⟩, fun k => Handed.nothing _, fun _ _ _ => rfl, .inl ⟨rfl, rfl, rfl⟩⟩
      unfold World.cloneEntityToU
      rw [if_pos ha]
      simp only [bind, Except.bind, hs]
      rfl
    | true =>
      have g1' : Sound { o.tick with ents := s2 } B Q2' (J ++ [e]) := g1
      have hal : s2.isAlive e = true := (g2 rfl e).2 (.inr rfl)
      obtain ⟨out, o', B', moved, cut, post, f1, f2, f3, f5, f6, f7, f9, f10⟩ :=
        g1'.cloneCompLoopU (fl := fl) (src := e) hal cl c q o.counter C w.stos h.nodup hC
      have hal' : o'.isAlive e = true := by unfold World.isAlive; rw [f5]; exact hal
      refine ⟨out, o', B', Q2', moved, cut, post, ?_, ?_, f2, f3, f7, f9, f10, .inr ⟨ha, ?_⟩⟩
      · unfold World.cloneEntityToU
        rw [if_pos ha]
        simp only [bind, Except.bind, hs, if_true, f1]
      · rw [if_pos hal']; exact f6
      · intro x
        unfold World.isAlive
        rw [f5]
        exact g2 rfl x
  · refine ⟨.unwound .refused, o.tick, B, Q2, [], [], w.stos.map Prod.fst, ?_, ho.tick.known e, rfl, by simp,
      .inr ⟨_, rfl⟩, fun k => Handed.nothing _, fun _ _ _ => rfl, .inl ⟨rfl, rfl, rfl⟩⟩
    unfold World.cloneEntityToU
    rw [if_neg ha]

theorem Sound.cloneComponentsToU {w : World V} {A : Nat → Option (Sto V)} {Q : List Nat} {I : List EId}
    (h : Sound w A Q I) {o : World V} {B : Nat → Option (Sto V)} {Q2 : List Nat} {J : List EId}
    (ho : Sound o B Q2 J) (src dst : EId) (cl : Nat → V → V) (c : Nat → Bool) (q : Panics) {C : Nat → Option V}
    (hC : ∀ x ∈ w.stos, World.cloneOf cl src x.1 x.2 = .ok (C x.1)) :
    ∃ out o', ∃ B' : Nat → Option (Sto V), ∃ moved cut post : List Nat,
      w.cloneComponentsToU fl cl c q o src dst = .ok (out, o') ∧ o'.ents = o.ents ∧ Sound o' B' Q2 J ∧
      (w.isAlive src = false ∨ o.isAlive dst = false → out = .unwound .refused ∧ o' = o.tick) ∧
      w.stos.map Prod.fst = moved ++ cut ++ post ∧ cut.length ≤ 1 ∧
      (out = .returned () ∧ cut = [] ∧ post = [] ∨ ∃ u, out = .unwound u) ∧
      (∀ k, Handed C moved cut k (look B k dst) (look B' k dst)) ∧
      (∀ k x, x.idx ≠ dst.idx → look B' k x = look B k x) := by
  by_cases hb : w.ents.isAlive src = true ∧ o.ents.isAlive dst = true
  · obtain ⟨out, o', B', moved, cut, post, f1, f2, f3, f5, f6, f7, f9, f10⟩ :=
      ho.tick.cloneCompLoopU (fl := fl) (src := src) hb.2 cl c q o.counter C w.stos h.nodup hC
    refine ⟨out, o', B', moved, cut, post, ?_, f5, f6, ?_, f2, f3, f7, f9, f10⟩
    · unfold World.cloneComponentsToU
      rw [if_pos hb.1, if_pos hb.2, f1]
    · intro hn
      unfold World.isAlive at hn
      rw [hb.1, hb.2] at hn
      rcases hn with hn | hn <;> cases hn
  · refine ⟨.unwound .refused, o.tick, B, [], [], w.stos.map Prod.fst, ?_, rfl, ho.tick,
      fun _ => ⟨rfl, rfl⟩, rfl, by simp, .inr ⟨_, rfl⟩, fun k => Handed.nothing _, fun _ _ _ => rfl⟩
    unfold World.cloneComponentsToU
    by_cases h1 : w.ents.isAlive src = true
    · rw [if_pos h1, if_neg (fun h2 => hb ⟨h1, h2⟩)]
    · rw [if_neg h1]

/-! ## `clone_storages_to` -/

/-- What the loop does: the storages up to some point are replaced if they can be cloned, the others are not touched. -/
theorem cloneLoopU_lookup (cl : Nat → V → V) (c : Nat → V → Bool) (d : Nat → Bool) (nowO : Nat) :
    ∀ (l : List (Nat × SparseSet V)) (o : World V) (out : Out Unit) (o' : World V), (l.map Prod.fst).Nodup →
    cloneLoopU fl cl c d nowO l o = (out, o') →
    ∃ done rest, l = done ++ rest ∧ (out = .returned () → rest = []) ∧ o'.ents = o.ents ∧
      (∀ k, lookupK o'.stos k = match lookupK done k with
        | some s => if s.canClone then some (cloneSto fl cl nowO k s) else lookupK o.stos k
        | none => lookupK o.stos k) ∧
      ((o.stos.map Prod.fst).Nodup → (o'.stos.map Prod.fst).Nodup) := by
  intro l
  induction l with
  | nil =>
    intro o out o' _ h
    simp only [cloneLoopU, Prod.mk.injEq] at h
    obtain ⟨rfl, rfl⟩ := h
    exact ⟨[], [], rfl, fun _ => rfl, rfl, fun k => rfl, id⟩
  | cons x l ih =>
    obtain ⟨j, s⟩ := x
    intro o out o' hn h
    simp only [List.map_cons, List.nodup_cons] at hn
    have hput : ∀ (t : SparseSet V) (k : Nat), k ≠ j → lookupK (o.put j t).stos k = lookupK o.stos k := by
      intro t k hk
      show lookupK (setK o.stos j _) k = _
      rw [lookupK_setK, if_neg hk]
    have hput' : ∀ t : SparseSet V, lookupK (o.put j t).stos j = some t := by
      intro t
      show lookupK (setK o.stos j _) j = _
      rw [lookupK_setK, if_pos rfl]
    have hnone : ∀ done rest : List (Nat × SparseSet V), l = done ++ rest → lookupK done j = none := by
      intro done rest he
      rw [lookupK_none]
      intro hm
      exact hn.1 (by rw [he, List.map_append]; exact List.mem_append_left _ hm)
    unfold cloneLoopU at h
    by_cases hc : s.canClone = true
    · rw [if_pos hc] at h
      by_cases hp : s.data.any (c j) = true
      · rw [if_pos hp] at h
        simp only [Prod.mk.injEq] at h
        obtain ⟨rfl, rfl⟩ := h
        exact ⟨[], (j, s) :: l, rfl, (fun h => by cases h), rfl, fun k => rfl, id⟩
      · rw [if_neg hp] at h
        by_cases hd : (d j && ((lookupK o.stos j).any fun t => !t.data.isEmpty)) = true
        · rw [if_pos hd] at h
          simp only [Prod.mk.injEq] at h
          obtain ⟨rfl, rfl⟩ := h
          refine ⟨[(j, s)], l, rfl, (fun h => by cases h), rfl, fun k => ?_, fun hn' => setK_nodup hn' _ _⟩
          · by_cases hk : k = j
            · subst hk
              simp only [lookupK, if_true, hc, hput']
            · simp only [lookupK, if_neg hk, hput _ k hk]
        · rw [if_neg hd] at h
          obtain ⟨done, rest, h1, h2, h3, h4, h5⟩ := ih _ _ _ hn.2 h
          refine ⟨(j, s) :: done, rest, by rw [h1]; rfl, h2, h3, fun k => ?_, fun hn' => h5 (setK_nodup hn' _ _)⟩
          · rw [h4]
            by_cases hk : k = j
            · subst hk
              simp only [hnone done rest h1, lookupK, if_true, hc, hput']
            · simp only [lookupK, if_neg hk, hput _ k hk]
    · rw [if_neg hc] at h
      obtain ⟨done, rest, h1, h2, h3, h4, h5⟩ := ih _ _ _ hn.2 h
      refine ⟨(j, s) :: done, rest, by rw [h1]; rfl, h2, h3, fun k => ?_, h5⟩
      · rw [h4]
        by_cases hk : k = j
        · subst hk
          simp only [hnone done rest h1, lookupK, if_true, hc, Bool.false_eq_true, if_false]
        · simp only [lookupK, if_neg hk]

/-- The storages of `ds` that can be cloned are replaced, nothing else is. -/
def Replaced (fl : Flags) (cl : Nat → V → V) (nowO : Nat) (ds : List (Nat × SparseSet V)) (o o' : World V) : Prop :=
  (∀ k s, (k, s) ∈ ds → s.canClone = true → lookupK o'.stos k = some (cloneSto fl cl nowO k s)) ∧
  ∀ k, (∀ s, (k, s) ∈ ds → s.canClone = false) → lookupK o'.stos k = lookupK o.stos k

theorem replaced_of {cl : Nat → V → V} {nowO : Nat} {ds : List (Nat × SparseSet V)} {o o' : World V}
    (hn : (ds.map Prod.fst).Nodup)
    (h : ∀ k, lookupK o'.stos k = match lookupK ds k with
        | some s => if s.canClone then some (cloneSto fl cl nowO k s) else lookupK o.stos k
        | none => lookupK o.stos k) : Replaced fl cl nowO ds o o' := by
  refine ⟨fun k s hm hc => ?_, fun k hk => ?_⟩
  · rw [h, lookupK_of_mem hn hm]
    simp only [hc, if_true]
  · rw [h]
    cases hl : lookupK ds k with
    | none => rfl
    | some s => simp only [hk s (lookupK_mem hl), Bool.false_eq_true, if_false]

theorem Replaced.append {cl : Nat → V → V} {nowO : Nat} {as bs : List (Nat × SparseSet V)} {o o1 o2 o' : World V}
    (hn : ((as ++ bs).map Prod.fst).Nodup) (h1 : Replaced fl cl nowO as o o1) (he : o2.stos = o1.stos)
    (h2 : Replaced fl cl nowO bs o2 o') : Replaced fl cl nowO (as ++ bs) o o' := by
  refine ⟨fun k s hm hc => ?_, fun k hk => ?_⟩
  · rcases List.mem_append.1 hm with hm | hm
    · rw [h2.2 k, he, h1.1 k s hm hc]
      intro t ht
      rw [List.map_append, List.nodup_append] at hn
      exact absurd rfl (hn.2.2 k (List.mem_map.2 ⟨_, hm, rfl⟩) k (List.mem_map.2 ⟨_, ht, rfl⟩))
    · exact h2.1 k s hm hc
  · rw [h2.2 k fun s hs => hk s (List.mem_append_right _ hs), he,
      h1.2 k fun s hs => hk s (List.mem_append_left _ hs)]

theorem Replaced.get {w : World V} {A : Nat → Option (Sto V)} {Q I} (hok : Sound w A Q I)
    {cl : Nat → V → V} {nowO : Nat} {ds : List (Nat × SparseSet V)} {o o' : World V} (h : Replaced fl cl nowO ds o o')
    (hd : ∀ k s, (k, s) ∈ ds → lookupK w.stos k = some s) :
    (∀ k x v, k ∈ ds.map Prod.fst → (∃ s, lookupK w.stos k = some s ∧ s.canClone = true) → x.gen < 65535 → w.get k x = .ok v →
      o'.get k x = .ok (v.map (cl k))) ∧
    ∀ k x, ¬ (k ∈ ds.map Prod.fst ∧ (∃ s, lookupK w.stos k = some s ∧ s.canClone = true)) → o'.get k x = o.get k x := by
  refine ⟨fun k x v hk hc hx hv => ?_, fun k x hn => ?_⟩
  · obtain ⟨⟨k', s⟩, hm, rfl⟩ := List.mem_map.1 hk
    have hs := hd _ _ hm
    obtain ⟨s', hs', hcc⟩ := hc
    rw [hs] at hs'
    cases hs'
    have hl := h.1 _ _ hm hcc
    have hsto := hok.sto k'
    rw [hs] at hsto
    generalize hA : A k' = ao at hsto
    cases hsto with
    | some ha =>
      obtain ⟨L', hL'⟩ := SparseSet.abs_clone ha fl cl nowO k'
      rw [hok.get k' hx] at hv
      injection hv with hv
      unfold World.get
      simp only [hl]
      rw [hL'.get hx, ← hv]
      unfold look
      rw [hA]
      exact congrArg Except.ok (lookup_cloneTab (fl := fl) cl nowO k' _ x)
  · unfold World.get
    rw [h.2 k]
    intro s hs
    cases hcc : s.canClone with
    | false => rfl
    | true => exact absurd ⟨List.mem_map.2 ⟨_, hs, rfl⟩, s, hd _ _ hs, hcc⟩ hn

theorem Sound.cloneStoragesToU {w : World V} {A : Nat → Option (Sto V)} {Q : List Nat} {I : List EId}
    (hok : Sound w A Q I) (o : World V) (cl : Nat → V → V) (c : Nat → V → Bool) (d : Nat → Bool)
    {before after : List (Nat × SparseSet V)} (hp : (before ++ after).Perm w.stos) :
    ∃ (out : Out Unit) (o' : World V) (ds : List (Nat × SparseSet V)),
      w.cloneStoragesToU fl cl c d before after o = (out, o') ∧ (∀ x ∈ ds, x ∈ w.stos) ∧ (ds.map Prod.fst).Nodup ∧
      Replaced fl cl o.counter ds o o' ∧
      (o'.ents = w.ents.tryClone ∨ o'.ents = o.ents ∧ out ≠ .returned () ∧ before ≠ []) ∧
      (out = .returned () → ∀ x ∈ w.stos, x ∈ ds) ∧
      ((o.stos.map Prod.fst).Nodup → (o'.stos.map Prod.fst).Nodup) := by
  have hnd : ((before ++ after).map Prod.fst).Nodup := (hp.map Prod.fst).nodup_iff.2 hok.nodup
  have hnd' := hnd
  rw [List.map_append, List.nodup_append] at hnd'
  unfold World.cloneStoragesToU
  generalize hl : cloneLoopU fl cl c d o.counter before o.tick = res
  obtain ⟨out1, o1⟩ := res
  obtain ⟨ds, rest, h1, h2, h3, h4, h5⟩ := cloneLoopU_lookup cl c d o.counter before o.tick out1 o1 hnd'.1 hl
  have hn1 : (ds.map Prod.fst).Nodup := by
    have := hnd'.1
    rw [h1, List.map_append, List.nodup_append] at this
    exact this.1
  have hr1 : Replaced fl cl o.counter ds o o1 := replaced_of hn1 h4
  cases out1 with
  | unwound u =>
    refine ⟨_, o1, ds, rfl, fun x hx => hp.subset (by rw [h1]; simp [hx]), hn1, hr1, .inr ⟨h3, (fun h => by cases h), ?_⟩,
      (fun h => by cases h), h5⟩
    rintro rfl
    simp only [cloneLoopU, Prod.mk.injEq] at hl
    cases hl.1
  | returned =>
    have hb : ds = before := by
      have := h2 rfl
      rw [this, List.append_nil] at h1
      exact h1.symm
    subst hb
    simp only
    generalize hl2 : cloneLoopU fl cl c d o.counter after { o1 with ents := w.ents.tryClone } = res
    obtain ⟨out2, o2⟩ := res
    obtain ⟨ds2, rest2, e1, e2, e3, e4, e5⟩ := cloneLoopU_lookup cl c d o.counter after _ out2 o2 hnd'.2.1 hl2
    have hn2 : (ds2.map Prod.fst).Nodup := by
      have := hnd'.2.1
      rw [e1, List.map_append, List.nodup_append] at this
      exact this.1
    have hnn : ((ds ++ ds2).map Prod.fst).Nodup := by
      have := hnd
      rw [e1, ← List.append_assoc, List.map_append, List.nodup_append] at this
      exact this.1
    refine ⟨out2, o2, ds ++ ds2, rfl, fun x hx => hp.subset ?_, hnn, Replaced.append hnn hr1 rfl (replaced_of hn2 e4),
      .inl e3, fun ho x hx => ?_, fun h => e5 (h5 h)⟩
    · rw [e1]
      rcases List.mem_append.1 hx with hx | hx <;> simp [hx]
    · have := e2 ho
      rw [this, List.append_nil] at e1
      rw [← e1]
      exact hp.mem_iff.2 hx

/-- The other world is sound if it has the entities of the source and no components but the clones. -/
theorem Sound.cloned {w o o' : World V} {A B : Nat → Option (Sto V)} {Q Q2 : List Nat} {I J : List EId}
    (h : Sound w A Q I) (ho : Sound o B Q2 J) {cl : Nat → V → V} {nowO : Nat} {ds : List (Nat × SparseSet V)}
    (hds : ∀ x ∈ ds, x ∈ w.stos) (hn : (ds.map Prod.fst).Nodup) (hr : Replaced fl cl nowO ds o o')
    (he : o'.ents = w.ents.tryClone) (hn' : (o'.stos.map Prod.fst).Nodup)
    (hemp : ∀ k s, lookupK o.stos k = some s → (∃ t, (k, t) ∈ ds ∧ t.canClone = true) ∨ s.dense = []) :
    ∃ B', Sound o' B' Q I := by
  have hlook : ∀ k s, (k, s) ∈ ds → lookupK w.stos k = some s := fun k s hm => lookupK_of_mem h.nodup (hds _ hm)
  refine ⟨fun k => match lookupK ds k with
    | some s => if s.canClone then (A k).map (cloneTab fl cl nowO k) else B k
    | none => B k, ?_, hn', ?_, ?_, ?_⟩
  · rw [he]; exact h.ent.hooks false []
  · intro k
    cases hl : lookupK ds k with
    | none =>
      simp only
      rw [hr.2 k fun s hs => by rw [lookupK_of_mem hn hs] at hl; cases hl]
      exact ho.sto k
    | some s =>
      simp only
      have hm := lookupK_mem hl
      by_cases hc : s.canClone = true
      · rw [if_pos hc, hr.1 k s hm hc]
        have hsto := h.sto k
        rw [hlook k s hm] at hsto
        generalize A k = ao at hsto
        cases hsto with
        | some ha =>
          obtain ⟨L', hL'⟩ := SparseSet.abs_clone ha fl cl nowO k
          exact .some hL'
      · rw [if_neg hc, hr.2 k fun t ht => by
          rw [lookupK_of_mem hn ht] at hl; cases hl; simpa using hc]
        exact ho.sto k
  · intro k b hb i r hrow
    have hB : B k = some b → (∀ t, (k, t) ∈ ds → t.canClone = false) → False := by
      intro hb' hno
      have := ho.sto k
      rw [hb'] at this
      generalize hlo : lookupK o.stos k = so at this
      cases this with
      | @some s _ L hab =>
        rcases hemp k s hlo with ⟨t, ht, htc⟩ | hd
        · rw [hno t ht] at htc; cases htc
        · have hL : s.dense = L.map (·.id) := congrArg SparseSet.dense hab.shape
          rw [hd] at hL
          have : L = [] := List.map_eq_nil_iff.1 hL.symm
          subst this
          rw [hab.rows] at hrow
          cases hrow
    cases hl : lookupK ds k with
    | none =>
      rw [hl] at hb
      exact (hB hb fun t ht => by rw [lookupK_of_mem hn ht] at hl; cases hl).elim
    | some s =>
      rw [hl] at hb
      simp only at hb
      split at hb
      · cases hA : A k with
        | none => rw [hA] at hb; cases hb
        | some a =>
          rw [hA] at hb
          cases hb
          unfold cloneTab StoSpec.Sto.cloned at hrow
          simp only at hrow
          cases ha : a.rows i with
          | none => rw [ha] at hrow; cases hrow
          | some r' =>
            rw [ha] at hrow
            cases hrow
            exact h.given k a hA i r' ha
      · rename_i hc
        exact (hB hb fun t ht => by rw [lookupK_of_mem hn ht] at hl; cases hl; simpa using hc).elim
  · intro e hal
    rw [he] at hal
    exact h.alive e hal

/-- The invariant holds after any calls. -/
theorem preach_ok {w : World V} {I : List EId} (hr : WSpec.PReach fl w I) : ∃ A Q, Sound w A Q I := by
  induction hr with
  | init hook =>
    refine ⟨fun _ => none, [], ⟨Entities.new_inv hook, ?_, ?_⟩, by simp [World.new], fun k => .none,
      (fun k a h => by cases h), ?_⟩
    · intro e he; cases he
    · intro i g hg; simp [genAt, Entities.new] at hg
    · intro e he; simp [Entities.new, Entities.isAlive] at he
  | @addEntity w I p cs e out w' _ hs hf ih =>
    obtain ⟨A, Q, ih⟩ := ih
    obtain ⟨out', w1, A', Q', pre, post, h1, _, h3, _⟩ := ih.addEntityU (fl := fl) (addEntityU_inv hs) hf p cs
    rw [hs] at h1
    cases h1
    exact ⟨A', Q', h3⟩
  | @bulkAddEntity w I cols n es w' _ hnd hne hlen hs hf ih =>
    obtain ⟨A, Q, ih⟩ := ih
    obtain ⟨hn, hl⟩ := bulkAddEntity_inv hs hne hlen
    obtain ⟨es', w1, A', Q', h1, _, h3, _⟩ := ih.bulkAddEntity (fl := fl) hn hlen hnd (by
      unfold WSpec.Fits at hf; omega)
    rw [hs] at h1
    cases h1
    exact ⟨A', Q', h3⟩
  | @addComponent w I p e cs out w' _ hs ih =>
    obtain ⟨A, Q, ih⟩ := ih
    unfold World.addComponentU at hs
    cases ha : w.ents.isAlive e with
    | true =>
      rw [if_pos ha] at hs
      obtain ⟨out', w1, A', pre, post, h1, _, _, h3, _⟩ := ih.tick.addAllU (fl := fl) ha p w.counter 0 cs
      rw [hs] at h1
      cases h1
      exact ⟨A', Q, h3⟩
    | false =>
      rw [if_neg (by rw [ha]; decide)] at hs
      cases hs
      exact ⟨A, Q, ih.tick⟩
  | @deleteEntity w I hp p e out w' _ _ hs ih =>
    obtain ⟨A, Q, ih⟩ := ih
    obtain ⟨out', w1, A', Q', pre, post, h1, h2, _⟩ := ih.deleteEntityU e hp p
    rw [hs] at h1
    cases h1
    exact ⟨A', Q', h2⟩
  | @strip w I p e out w' _ hv hs ih =>
    obtain ⟨A, Q, ih⟩ := ih
    obtain ⟨out', w1, A', pre, post, h1, _, h2, _⟩ := ih.stripU hv p
    rw [hs] at h1
    cases h1
    exact ⟨A', Q, h2⟩
  | @bulkStrip w I p es out w' _ hv hs ih =>
    obtain ⟨A, Q, ih⟩ := ih
    obtain ⟨out', w1, A', h1, _, h2, _⟩ := ih.bulkStripU hv p
    rw [hs] at h1
    cases h1
    exact ⟨A', Q, h2⟩
  | @retainStorage w I p e keep out w' _ hv hs ih =>
    obtain ⟨A, Q, ih⟩ := ih
    obtain ⟨out', w1, A', pre, post, h1, _, h2, _⟩ := ih.retainStorageByIdU hv p keep
    rw [hs] at h1
    cases h1
    exact ⟨A', Q, h2⟩
  | @remove w I p ks e out w' _ hv hs ih =>
    obtain ⟨A, Q, ih⟩ := ih
    obtain ⟨out', w1, A', pre, post, h1, _, h2, _⟩ := ih.tick.removeAllU (fl := fl) hv p w.counter 0 ks
    unfold World.removeU at hs
    rw [hs] at h1
    cases h1
    exact ⟨A', Q, h2⟩
  | @deleteComponent w I p ks e out w' _ hv hs ih =>
    obtain ⟨A, Q, ih⟩ := ih
    obtain ⟨out', w1, A', pre, post, h1, _, h2, _⟩ := ih.tick.deleteFirstU (fl := fl) hv p w.counter 0 ks
    unfold World.deleteComponentU at hs
    rw [hs] at h1
    cases h1
    exact ⟨A', Q, h2⟩
  | @deleteAny w I p q ks order out w' _ hs ih =>
    obtain ⟨A, Q, ih⟩ := ih
    obtain ⟨out', w1, A', Q', h1, h2⟩ := ih.deleteAnyU p q ks order
    rw [hs] at h1
    cases h1
    exact ⟨A', Q', h2⟩
  | @clear w I m hp p out w' _ hne hs ho ih =>
    obtain ⟨A, Q, ih⟩ := ih
    obtain ⟨out', w1, h1, h2⟩ := ih.clearU hne m hp p
    rw [hs] at h1
    cases h1
    obtain ⟨A', Q', _, _, h3, _⟩ := h2 ho
    exact ⟨A', Q', h3⟩
  | @spawn w I e b w' _ hv hs hf ih =>
    obtain ⟨A, Q, ih⟩ := ih
    obtain ⟨ents, h1, rfl⟩ := spawn_inv hs
    obtain ⟨Q', h2, _⟩ := ih.spawn hv h1 hf
    exact ⟨A, Q', h2⟩
  | @deleteUnchecked w I hp e out ents _ _ hs ih =>
    obtain ⟨A, Q, ih⟩ := ih
    obtain ⟨out', s', Q', h1, h2, h3, _⟩ := ent_deleteU ih.ent ih.alive e hp
    rw [hs] at h1
    cases h1
    exact ⟨A, Q', ih.ents h2 (fun _ h => h) h3⟩
  | create k _ ih =>
    obtain ⟨A, Q, ih⟩ := ih
    obtain ⟨A', h1, _⟩ := ih.create (fl := fl) k
    exact ⟨A', Q, h1⟩
  | view _ hl hs hev ih =>
    obtain ⟨A, Q, ih⟩ := ih
    obtain ⟨A', h1, _⟩ := ih.view hl hs hev
    exact ⟨A', Q, h1⟩
  | viewAdd _ hl he hs ih =>
    obtain ⟨A, Q, ih⟩ := ih
    obtain ⟨A', h1, _⟩ := ih.viewAdd hl he hs
    exact ⟨A', Q, h1⟩
  | registerClone k _ ih =>
    obtain ⟨A, Q, ih⟩ := ih
    obtain ⟨A', h1, _⟩ := ih.registerClone (fl := fl) k
    exact ⟨A', Q, h1⟩
  | @moveOut w o I J hp p q e out w' o' _ _ hs ih ihO =>
    obtain ⟨A, Q, ih⟩ := ih
    obtain ⟨B, Q2, ihO⟩ := ihO
    obtain ⟨_, _, _, A', _, Q', _, _, _, _, h1, h2, _⟩ := ih.moveEntityU (fl := fl) ihO e hp p q
    rw [hs] at h1
    cases h1
    exact ⟨A', Q', h2⟩
  | @moveIn w o I J hp p q e out w' o' _ _ hs ih ihO =>
    obtain ⟨A, Q, ih⟩ := ih
    obtain ⟨B, Q2, ihO⟩ := ihO
    obtain ⟨_, _, _, _, B', _, Q2', _, _, _, h1, _, h2, _⟩ := ih.moveEntityU (fl := fl) ihO e hp p q
    rw [hs] at h1
    cases h1
    exact ⟨B', Q2', h2⟩
  | @moveComponentsOut w o I J p q src dst out w' o' _ _ hs ih ihO =>
    obtain ⟨A, Q, ih⟩ := ih
    obtain ⟨B, Q2, ihO⟩ := ihO
    obtain ⟨_, _, _, A', _, _, _, _, h1, _, _, h2, _⟩ := ih.moveComponentsU (fl := fl) ihO src dst p q
    rw [hs] at h1
    cases h1
    exact ⟨A', Q, h2⟩
  | @moveComponentsIn w o I J p q src dst out w' o' _ _ hs ih ihO =>
    obtain ⟨A, Q, ih⟩ := ih
    obtain ⟨B, Q2, ihO⟩ := ihO
    obtain ⟨_, _, _, _, B', _, _, _, h1, _, _, _, h2, _⟩ := ih.moveComponentsU (fl := fl) ihO src dst p q
    rw [hs] at h1
    cases h1
    exact ⟨B', Q2, h2⟩
  | @cloneEntityTo w o I J cl c q e out o' _ _ hs ih ihO =>
    obtain ⟨A, Q, ih⟩ := ih
    obtain ⟨B, Q2, ihO⟩ := ihO
    by_cases ha : w.ents.isAlive e = true
    · obtain ⟨C, hC, _⟩ := ih.cloneOf cl (ih.ent.valid ha).1
      obtain ⟨_, _, B', Q2', _, _, _, h1, h2, _⟩ := ih.cloneEntityToU (fl := fl) ihO e cl c q hC
      rw [hs] at h1
      cases h1
      exact ⟨B', Q2', h2⟩
    · unfold World.cloneEntityToU at hs
      rw [if_neg ha] at hs
      cases hs
      exact ⟨B, Q2, ihO.tick.known e⟩
  | @cloneComponentsTo w o I J cl c q src dst out o' _ _ hs ih ihO =>
    obtain ⟨A, Q, ih⟩ := ih
    obtain ⟨B, Q2, ihO⟩ := ihO
    by_cases ha : w.ents.isAlive src = true
    · obtain ⟨C, hC, _⟩ := ih.cloneOf cl (ih.ent.valid ha).1
      obtain ⟨_, _, B', _, _, _, h1, _, h2, _⟩ := ih.cloneComponentsToU (fl := fl) ihO src dst cl c q hC
      rw [hs] at h1
      cases h1
      exact ⟨B', Q2, h2⟩
    · unfold World.cloneComponentsToU at hs
      rw [if_neg ha] at hs
      cases hs
      exact ⟨B, Q2, ihO.tick⟩
  | @cloneStorages w o I J cl c d before after out o' _ _ hp hs he hemp ih ihO =>
    obtain ⟨A, Q, ih⟩ := ih
    obtain ⟨B, Q2, ihO⟩ := ihO
    obtain ⟨_, _, ds, h1, h2, h3, h4, h5, h6, h7⟩ := ih.cloneStoragesToU (fl := fl) o cl c d hp
    rw [hs] at h1
    cases h1
    have hent : o'.ents = w.ents.tryClone := by
      rcases h5 with h5 | ⟨_, h5, h5'⟩
      · exact h5
      · rcases he with he | he
        · exact absurd he h5
        · exact absurd he h5'
    obtain ⟨B', hB'⟩ := ih.cloned ihO h2 h3 h4 hent (h7 ihO.nodup) (fun k s hk => by
      rcases hemp k s hk with ⟨ho, t, ht, htc⟩ | hd
      · exact .inl ⟨t, h6 ho _ (lookupK_mem ht), htc⟩
      · exact .inr hd)
    exact ⟨B', Q, hB'⟩
  | onDeletion _ ih =>
    obtain ⟨A, Q, ih⟩ := ih
    exact ⟨A, Q, ih.ents (ih.ent.hooks true _) (fun _ h => h) ih.alive⟩
  | takeOnDeletion _ ih =>
    obtain ⟨A, Q, ih⟩ := ih
    exact ⟨A, Q, ih.ents (ih.ent.hooks false _) (fun _ h => h) ih.alive⟩
  | clock c _ ih =>
    obtain ⟨A, Q, ih⟩ := ih
    exact ⟨A, Q, ih.counter c⟩
  | rehash l _ hp ih =>
    obtain ⟨A, Q, ih⟩ := ih
    exact ⟨A, Q, ih.ent, (hp.map _).nodup_iff.1 ih.nodup, fun k => by
      rw [lookupK_perm ih.nodup hp k]; exact ih.sto k, ih.given, ih.alive⟩

end Verif.World
