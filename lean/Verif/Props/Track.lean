import Verif.Lemmas.Track
import Verif.Props.Tracking
import Verif.Spec.IterDemo

/-!
# Declared and run-time tracking: C65, C66, and the queries of C24 and C64 over one view

`Declared`, `Tracked` and `Offers` are in `Verif/Spec/Track.lean`.
-/
namespace Verif.TrkSpec
open StoSpec Tracking Track
variable {T : Type}

/-! ## C24, C64: the other queries of a view -/

/-- C24. `is_inserted_or_modified(e)` holds exactly when `e` has a component which it got, or which was written
since, at a timestamp in the window. -/
theorem C24_inserted_or_modified_partial {c d : Bool} {h : List (Event T)} {s : SparseSet T}
    (hr : Run (SparseSet.new true true c d) h s) (hn : NoTakeover h) {e : EId} (he : Valid e)
    (v : View T) (hv : v.set = s) :
    ∃ b, v.isInsertedOrModified e = .ok b ∧ (b = true ↔ (∃ x, s.get e = .ok (some x)) ∧
      ((∃ t, bornAt h e = some t ∧ InWindow t v.lastInsertion v.current) ∨
        ∃ t, writtenAt h e = some t ∧ InWindow t v.lastModification v.current)) := by
  obtain ⟨i, m, h1, h2, h3, h4⟩ := C24_flags_exact_partial hr hn he v hv
  refine ⟨i || m, ?_, ?_⟩
  · unfold View.isInsertedOrModified
    rw [h1]
    cases i with
    | true => rfl
    | false => exact h2
  · rw [Bool.or_eq_true, h3, h4]
    constructor
    · rintro (⟨a, b⟩ | ⟨a, b⟩)
      · exact ⟨a, .inl b⟩
      · exact ⟨a, .inr b⟩
    · rintro ⟨a, b | b⟩
      · exact .inl ⟨a, b⟩
      · exact .inr ⟨a, b⟩

/-- C64. Over any window, of any history of a storage that tracks removals and deletions: `removed()` lists the
removals and `deleted()` the deletions of the window, in order, `removed_or_deleted()` the ids of the deletions then
those of the removals; `is_removed(e)`, `is_deleted(e)` and `is_removed_or_deleted(e)` say whether they list
`e`. -/
theorem C64_window_partial {a b : Bool} {h : List (Event T)} {s : SparseSet T}
    (hr : Run (SparseSet.new a b true true) h s) (hn : NoTakeover h) (v : View T) (hv : v.set = s) :
    v.removed = ((removedLog h).filter fun x => decide (InWindow x.2 v.lastRemovalOrDeletion v.current)).map (·.1) ∧
    v.deleted = ((deletedLog h).filter fun x => decide (InWindow x.2.1 v.lastRemovalOrDeletion v.current)).map
      (fun x => (x.1, x.2.2)) ∧
    v.removedOrDeleted = v.deleted.map (·.1) ++ v.removed ∧
    ∀ e, (v.isRemoved e = true ↔ e ∈ v.removed) ∧ (v.isDeleted e = true ↔ ∃ x, (e, x) ∈ v.deleted) ∧
      (isRemovedOrDeleted .all v e = true ↔ e ∈ v.removedOrDeleted) := by
  obtain ⟨L, hL⟩ := SparseSet.run_abs hr
  have key : ∀ (b : Bool) (P : Prop) [Decidable P] (α : Type) (x : α), (b = true ↔ P) →
      (if b = true then some x else none) = if P then some x else none := by
    intro b P _ α x hb
    by_cases hp : P
    · rw [if_pos hp, if_pos (hb.2 hp)]
    · rw [if_neg hp, if_neg (fun h => hp (hb.1 h))]
  have fm : ∀ {α β : Type} (p : α → Bool) (f : α → β) (l : List α),
      l.filterMap (fun x => if p x = true then some (f x) else none) = (l.filter p).map f := by
    intro α β p f l
    induction l with
    | nil => rfl
    | cons x l ih =>
      rw [List.filterMap_cons, List.filter_cons]
      cases hp : p x with
      | true => simp [ih]
      | false => simp [ih]
  refine ⟨?_, ?_, rfl, fun e => ⟨isRemoved_iff, isDeleted_iff, ?_⟩⟩
  · unfold View.removed
    rw [hv, hL.removed, after_removed (Sto.init a b true true) (Sto.init true true true true) h rfl rfl, ← fm]
    show List.filterMap _ (removedLog h) = _
    refine filterMap_congr' fun x _ => ?_
    simp only [decide_eq_true_eq]
    exact key _ _ _ _ (isWithin_iff _ _ _)
  · unfold View.deleted
    rw [hv, hL.deleted hn, after_deleted (Sto.init a b true true) (Sto.init true true true true) h rfl rfl, ← fm]
    show List.filterMap _ (deletedLog h) = _
    refine filterMap_congr' fun x _ => ?_
    simp only [decide_eq_true_eq]
    exact key _ _ _ _ (isWithin_iff _ _ _)
  · unfold isRemovedOrDeleted Track.isDeleted Track.isRemoved View.removedOrDeleted
    rw [Bool.or_eq_true, List.mem_append, show Kind.all.hasDeletion = true from rfl,
      show Kind.all.hasRemoval = true from rfl, Bool.true_and, Bool.true_and, isRemoved_iff, isDeleted_iff]
    simp

/-- C64. `override_last_removal_or_deletion(t)`, `override_last_insertion(t)` and `override_last_modification(t)` move
the beginning of their own window to `t`, and nothing else. -/
theorem C64_override (v : View T) (t : Nat) :
    ((v.overrideLastRemovalOrDeletion t).removed = (v.set.removalData.filter fun x => decide (InWindow x.2 t v.current)).map (·.1) ∧
     ∀ e, (v.overrideLastRemovalOrDeletion t).isInserted e = v.isInserted e ∧
      (v.overrideLastRemovalOrDeletion t).isModified e = v.isModified e) ∧
    ((v.overrideLastInsertion t).removed = v.removed ∧ (v.overrideLastInsertion t).deleted = v.deleted ∧
     ∀ e, (v.overrideLastInsertion t).isModified e = v.isModified e ∧
      (v.overrideLastInsertion t).isInserted e = (⟨v.set, t, 0, 0, v.current⟩ : View T).isInserted e) ∧
    ((v.overrideLastModification t).removed = v.removed ∧ (v.overrideLastModification t).deleted = v.deleted ∧
     ∀ e, (v.overrideLastModification t).isInserted e = v.isInserted e ∧
      (v.overrideLastModification t).isModified e = (⟨v.set, 0, t, 0, v.current⟩ : View T).isModified e) := by
  refine ⟨⟨?_, fun _ => ⟨rfl, rfl⟩⟩, ⟨rfl, rfl, fun _ => ⟨rfl, rfl⟩⟩, ⟨rfl, rfl, fun _ => ⟨rfl, rfl⟩⟩⟩
  unfold View.removed View.overrideLastRemovalOrDeletion
  simp only
  induction v.set.removalData with
  | nil => rfl
  | cons x l ih =>
    rw [List.filterMap_cons, List.filter_cons, ih]
    by_cases hw : InWindow x.2 t v.current
    · simp [hw, (isWithin_iff _ _ _).2 hw]
    · have : isWithin x.2 t v.current = false := by
        cases hb : isWithin x.2 t v.current with
        | false => rfl
        | true => exact absurd ((isWithin_iff _ _ _).1 hb) hw
      simp [hw, this]

/-! A storage tracking everything, in which `a` was written and `b` removed at 3, after `c` was deleted at 2. -/

def ea : EId := ⟨3, 0⟩
def eb : EId := ⟨4, 0⟩
def ec : EId := ⟨5, 0⟩

def fullHist : List (Event Nat) :=
  [.inserted ea 10 1 .inserted, .inserted eb 20 1 .inserted, .inserted ec 30 1 .inserted,
   .deleted ec 2 (some 30), .wrote [(ea, 11)] 3, .removed eb 3 (some 20)]

theorem full_run (a b c d : Bool) : ∃ s, Run (SparseSet.new a b c d) fullHist s := by
  have h0 := Run.nil (s0 := (SparseSet.new a b c d : SparseSet Nat))
  cases a <;> cases b <;> cases c <;> cases d <;>
  · have h1 := h0.snoc (Step.insert (e := ea) (v := 10) (now := 1) (by decide) rfl)
    have h2 := h1.snoc (Step.insert (e := eb) (v := 20) (now := 1) (by decide) rfl)
    have h3 := h2.snoc (Step.insert (e := ec) (v := 30) (now := 1) (by decide) rfl)
    have h4 := h3.snoc (Step.delete (e := ec) (now := 2) (by decide) rfl rfl)
    have h5 := h4.snoc (Step.write (e := ea) (now := 3) (v := 11) (by decide) rfl)
    have h6 := h5.snoc (Step.remove (e := eb) (now := 3) (by decide) rfl)
    exact ⟨_, h6⟩

theorem full_noTakeover : NoTakeover fullHist := by
  intro e v now hm
  simp [fullHist] at hm

example : ∃ s : SparseSet Nat, Run (SparseSet.new true true true true) fullHist s ∧
    (⟨s, 0, 0, 1, 9⟩ : View Nat).removedOrDeleted = [ec, eb] := by
  obtain ⟨s, hs⟩ := full_run true true true true
  obtain ⟨h1, h2, h3, _⟩ := C64_window_partial hs full_noTakeover ⟨s, 0, 0, 1, 9⟩ rfl
  refine ⟨s, hs, ?_⟩
  rw [h3, h1, h2]
  rfl

example : ∃ s : SparseSet Nat, Run (SparseSet.new true true true true) fullHist s ∧
    ∃ b, (⟨s, 0, 1, 0, 9⟩ : View Nat).isInsertedOrModified ea = .ok b := by
  obtain ⟨s, hs⟩ := full_run true true true true
  obtain ⟨b, hb, _⟩ := C24_inserted_or_modified_partial hs full_noTakeover (e := ea) (by decide) ⟨s, 0, 1, 0, 9⟩ rfl
  exact ⟨s, hs, b, hb⟩

/-! ## C65 -/

/-- C65. Whatever is written in `#[track(...)]`: the views of the component, of its own tracking type, offer exactly
the queries asked for. -/
theorem C65_offers {toks : List String} (hw : WellFormed toks) :
    ∃ k, derive toks = some k ∧ ∀ w, Offers k w = true ↔ Declared toks w := by
  obtain ⟨g, h1, _⟩ := readTokens_ok hw ⟨false, false, false, false⟩
  have hd : derive toks = some (kindOf g) := by unfold derive; rw [h1]; rfl
  exact ⟨kindOf g, hd, derive_offers hw hd⟩

theorem readTokens_bad {toks : List String} : (∃ f g, readTokens toks f = some g) → WellFormed toks := by
  induction toks with
  | nil => exact fun _ _ h => nomatch h
  | cons t ts ih =>
    rintro ⟨f, g, h⟩
    have go : ∀ f', readTokens ts f' = some g → (t = "Insertion" ∨ t = "Modification" ∨ t = "Deletion" ∨ t = "Removal" ∨ t = "All") →
        WellFormed (t :: ts) := by
      intro f' h' ht x hx
      rcases List.mem_cons.mp hx with rfl | hx
      · exact ht
      · exact ih ⟨f', g, h'⟩ x hx
    simp only [readTokens] at h
    split at h
    · next e => exact go _ h (.inl e)
    split at h
    · next e => exact go _ h (.inr (.inl e))
    split at h
    · next e => exact go _ h (.inr (.inr (.inl e)))
    split at h
    · next e => exact go _ h (.inr (.inr (.inr (.inl e))))
    split at h
    · next e => exact go _ h (.inr (.inr (.inr (.inr e))))
    · cases h

/-- C65. Exactly the five documented words compile in `#[track(...)]`. -/
theorem C65_compiles (toks : List String) : (derive toks).isSome = true ↔ WellFormed toks := by
  constructor
  · intro h
    unfold derive at h
    rw [Option.isSome_map] at h
    obtain ⟨g, hg⟩ := Option.isSome_iff_exists.mp h
    exact readTokens_bad ⟨_, g, hg⟩
  · intro hw
    obtain ⟨k, hk, _⟩ := C65_offers hw
    rw [hk]
    rfl

example : derive ["Insertion", "Everything"] = none ∧ derive ["Removal", "Insertion"] = some .insertionAndRemoval := ⟨rfl, rfl⟩

theorem mem_idents {s : String} : ∀ {toks : List Tok}, s ∈ idents toks ↔ Tok.ident s ∈ toks
  | [] => by simp [idents]
  | .ident t :: ts => by simp [idents, mem_idents (toks := ts)]
  | .punct :: ts => by simp [idents, mem_idents (toks := ts)]
  | .literal :: ts => by simp [idents, mem_idents (toks := ts)]
  | .group _ :: ts => by simp [idents, mem_idents (toks := ts)]

theorem trackAttr_head (attrs : List DeriveAttr) : trackAttr attrs = (trackAttrs attrs).head? := by
  unfold trackAttr trackAttrs
  rw [← List.head?_filter, List.filter_filter]
  congr 2
  funext a
  exact Bool.and_comm _ _

/-- C65. A component with at most one `#[track...]`, anywhere among its attributes: it compiles exactly when that attribute is a
list of the documented words, and the views then offer exactly the queries asked for. -/
theorem C65_attributes_partial {attrs : List DeriveAttr} (h1 : (trackAttrs attrs).length ≤ 1) :
    ((deriveComponent attrs).isSome = true ↔ WellFormedOn attrs) ∧
    ∀ k, deriveComponent attrs = some k → ∀ w, Offers k w = true ↔ DeclaredOn attrs w := by
  unfold deriveComponent WellFormedOn DeclaredOn
  rw [trackAttr_head]
  rcases hl : trackAttrs attrs with _ | ⟨a, _ | ⟨b, l⟩⟩
  · refine ⟨by simp, fun k hk w => ?_⟩
    cases hk
    cases w <;> simp [Offers, Kind.hasInsertion, Kind.hasModification, Kind.hasDeletion, Kind.hasRemoval]
  · simp only [List.head?_cons, List.mem_singleton, forall_eq, exists_eq_left]
    rcases ha : a.arg with _ | toks | _
    · exact ⟨by simp, fun k hk => nomatch hk⟩
    · refine ⟨?_, fun k hk w => ?_⟩
      · rw [C65_compiles]
        unfold WellFormed
        simp only [mem_idents, AttrMeta.list.injEq, exists_eq_left']
      · replace hk : derive (idents toks) = some k := hk
        have hw : WellFormed (idents toks) := (C65_compiles _).mp (by rw [hk]; rfl)
        obtain ⟨k', hk', ho⟩ := C65_offers hw
        rw [hk] at hk'
        cases hk'
        rw [ho w]
        unfold Declared
        simp only [mem_idents, AttrMeta.list.injEq, exists_eq_left']
    · exact ⟨by simp, fun k hk => nomatch hk⟩
  · rw [hl] at h1
    simp at h1

/-- `#[derive(..)] #[track(Removal, Insertion)]`, after the comment and before another attribute. -/
example : (trackAttrs [⟨true, some "doc", .nameValue⟩, ⟨true, some "track", .list [.ident "Removal", .punct, .ident "Insertion"]⟩,
      ⟨true, some "repr", .list [.ident "C"]⟩]).length ≤ 1 ∧
    deriveComponent [⟨true, some "doc", .nameValue⟩, ⟨true, some "track", .list [.ident "Removal", .punct, .ident "Insertion"]⟩,
      ⟨true, some "repr", .list [.ident "C"]⟩] = some .insertionAndRemoval := by decide

/-- C65 is false of a component with two `#[track(...)]`: only the first is read. Whatever the second one asks for is not tracked,
and a second one that is malformed compiles. -/
theorem C65_second_attribute_fails (w : What) (arg : AttrMeta) :
    deriveComponent [⟨true, some "track", .list [.ident w.name]⟩, ⟨true, some "track", arg⟩] =
      deriveComponent [⟨true, some "track", .list [.ident w.name]⟩] := by
  cases w <;> rfl

example : DeclaredOn [⟨true, some "track", .list [.ident "Insertion"]⟩, ⟨true, some "track", .list [.ident "Deletion"]⟩] .deletion ∧
    deriveComponent [⟨true, some "track", .list [.ident "Insertion"]⟩, ⟨true, some "track", .list [.ident "Deletion"]⟩] =
      some .insertion ∧ Offers .insertion .deletion = false := by
  refine ⟨⟨⟨true, some "track", .list [.ident "Deletion"]⟩, ?_, _, rfl, .inl (List.mem_singleton.mpr rfl)⟩, rfl, rfl⟩
  simp [trackAttrs]

/-- C65: words in quotes or in parentheses are skipped without an error: `#[track("All")]` and `#[track((All))]` track nothing. -/
theorem C65_skipped_fails : deriveComponent [⟨true, some "track", .list [.literal]⟩] = some .untracked ∧
    deriveComponent [⟨true, some "track", .list [.group ["All"]]⟩] = some .untracked ∧
    ∀ w, Offers .untracked w = false := ⟨rfl, rfl, fun w => by cases w <;> rfl⟩

/-- C65. A storage made for the component tracks exactly what is written in `#[track(...)]`, unless this is
modifications and removals and nothing else. -/
theorem C65_tracked_partial {toks : List String} {k : Kind} (hw : WellFormed toks) (hk : derive toks = some k)
    (hx : ¬ (Declared toks .modification ∧ Declared toks .removal ∧ ¬ Declared toks .insertion ∧
      ¬ Declared toks .deletion)) (w : What) :
    Tracked (newFor k : SparseSet T) w = true ↔ Declared toks w := by
  have ho := derive_offers hw hk
  rw [← ho w]
  obtain ⟨t1, t2, t3, t4⟩ := kind_tracks k
  have hne : k ≠ .modificationAndRemoval := by
    intro he
    subst he
    refine hx ⟨(ho _).1 rfl, (ho _).1 rfl, fun h => ?_, fun h => ?_⟩
    · cases (ho _).2 h
    · cases (ho _).2 h
  cases w
  · exact (by show k.trackInsertion = true ↔ _; rw [t1]; rfl)
  · exact (by show k.trackModification = true ↔ _; rw [t2]; rfl)
  · exact (by show k.trackDeletion = true ↔ _; rw [t3]; rfl)
  · exact (by show k.trackRemoval = true ↔ _; rw [t4 hne]; rfl)

/-- C65. Every query a declared tracking offers is exact, whatever the history: with insertions declared
`is_inserted` is (C24), with modifications `is_modified`, with deletions `deleted()` and `is_deleted`, with removals
`removed()` and `is_removed`; other types of tracking may or may not be declared. `#[track(Modification, Removal)]`
is excluded for the removals. -/
theorem C65_exact_partial {toks : List String} {k : Kind} (hw : WellFormed toks) (hk : derive toks = some k)
    {h : List (Event T)} {s : SparseSet T} (hr : Run (newFor k) h s) (hn : NoTakeover h) {e : EId} (he : Valid e)
    (v : View T) (hv : v.set = s) :
    (Declared toks .insertion → ∃ i, Track.isInserted k v e = .ok i ∧ (i = true ↔ (∃ x, s.get e = .ok (some x)) ∧
      ∃ t, bornAt h e = some t ∧ InWindow t v.lastInsertion v.current)) ∧
    (Declared toks .modification → ∃ m, Track.isModified k v e = .ok m ∧ (m = true ↔ (∃ x, s.get e = .ok (some x)) ∧
      ∃ t, writtenAt h e = some t ∧ InWindow t v.lastModification v.current)) ∧
    (Declared toks .deletion →
      (Track.isDeleted k v e = true ↔ ∃ t x, (e, t, x) ∈ deletedLog h ∧ InWindow t v.lastRemovalOrDeletion v.current) ∧
      ∀ x, (e, x) ∈ v.deleted ↔ ∃ t, (e, t, x) ∈ deletedLog h ∧ InWindow t v.lastRemovalOrDeletion v.current) ∧
    (Declared toks .removal → Declared toks .insertion ∨ Declared toks .deletion ∨ ¬ Declared toks .modification →
      (Track.isRemoved k v e = true ↔ ∃ t, (e, t) ∈ removedLog h ∧ InWindow t v.lastRemovalOrDeletion v.current) ∧
      (e ∈ v.removed ↔ ∃ t, (e, t) ∈ removedLog h ∧ InWindow t v.lastRemovalOrDeletion v.current)) := by
  have ho := derive_offers hw hk
  obtain ⟨t1, t2, t3, t4⟩ := kind_tracks k
  obtain ⟨L, hL⟩ := SparseSet.run_abs hr
  have hg := run_good hr hn
  have hn0 : ∀ (A : Sto T) (_ : A.rows = fun _ => none) r, rowOf A e ≠ some r := by
    intro A hA r hro
    have := (rowOf_eq.1 hro).1
    rw [hA] at this
    cases this
  refine ⟨fun hd => ?_, fun hd => ?_, fun hd => ?_, fun hd hx => ?_⟩
  · have hh : k.hasInsertion = true := (ho .insertion).2 hd
    unfold Track.isInserted
    rw [if_pos hh]
    exact inserted_from hL hg (t1.trans hh) he (fun r hro => absurd hro (hn0 _ rfl r)) v hv
  · have hh : k.hasModification = true := (ho .modification).2 hd
    unfold Track.isModified
    rw [if_pos hh]
    exact modified_from hL hg (t2.trans hh) he (fun r hro => absurd hro (hn0 _ rfl r)) v hv
  · have hh : k.hasDeletion = true := (ho .deletion).2 hd
    have hlog : v.set.deletionData = deletedLog h := by
      rw [hv, hL.deleted hn]
      exact after_deleted _ _ h rfl (t3.trans hh)
    unfold Track.isDeleted
    rw [hh, Bool.true_and, isDeleted_iff, ← hlog]
    refine ⟨⟨?_, ?_⟩, fun x => mem_deleted⟩
    · rintro ⟨x, hx⟩
      obtain ⟨t, ht⟩ := mem_deleted.1 hx
      exact ⟨t, x, ht⟩
    · rintro ⟨t, x, ht⟩
      exact ⟨x, mem_deleted.2 ⟨t, ht⟩⟩
  · have hh : k.hasRemoval = true := (ho .removal).2 hd
    have hne : k ≠ .modificationAndRemoval := by
      intro hke
      subst hke
      rcases hx with hx | hx | hx
      · cases (ho .insertion).2 hx
      · cases (ho .deletion).2 hx
      · exact hx ((ho .modification).1 rfl)
    have hlog : v.set.removalData = removedLog h := by
      rw [hv, hL.removed]
      exact after_removed _ _ h rfl ((t4 hne).trans hh)
    unfold Track.isRemoved
    rw [hh, Bool.true_and, isRemoved_iff, ← hlog]
    exact ⟨mem_removed, mem_removed⟩

/-- C65: what was not declared is never reported, whatever is in the storage: a storage can track more than
its type declares. -/
theorem C65_undeclared {toks : List String} {k : Kind} (hw : WellFormed toks) (hk : derive toks = some k)
    (v : View T) (e : EId) :
    (¬ Declared toks .insertion → Track.isInserted k v e = .ok false) ∧
    (¬ Declared toks .modification → Track.isModified k v e = .ok false) ∧
    (¬ Declared toks .deletion → Track.isDeleted k v e = false) ∧
    (¬ Declared toks .removal → Track.isRemoved k v e = false) := by
  have ho := derive_offers hw hk
  have hf : ∀ w, ¬ Declared toks w → Offers k w = false := by
    intro w hd
    cases hw : Offers k w with
    | false => rfl
    | true => exact absurd ((ho w).1 hw) hd
  refine ⟨fun hd => ?_, fun hd => ?_, fun hd => ?_, fun hd => ?_⟩
  · have hh : k.hasInsertion = false := hf .insertion hd
    simp only [Track.isInserted, hh, Bool.false_eq_true, if_false]
  · have hh : k.hasModification = false := hf .modification hd
    simp only [Track.isModified, hh, Bool.false_eq_true, if_false]
  · have hh : k.hasDeletion = false := hf .deletion hd
    simp only [Track.isDeleted, hh, Bool.false_and]
  · have hh : k.hasRemoval = false := hf .removal hd
    simp only [Track.isRemoved, hh, Bool.false_and]

/-- `#[track(Removal, Insertion)]` and the history above. -/
example : WellFormed ["Removal", "Insertion"] ∧ derive ["Removal", "Insertion"] = some .insertionAndRemoval ∧
    Declared ["Removal", "Insertion"] .removal ∧ Declared ["Removal", "Insertion"] .insertion ∧
    (∃ s : SparseSet Nat, Run (newFor .insertionAndRemoval) fullHist s) ∧ NoTakeover fullHist := by
  refine ⟨?_, by decide, by decide, by decide, full_run true false false true, full_noTakeover⟩
  intro t ht
  simp at ht
  rcases ht with rfl | rfl <;> simp

/-- C65 is false of `#[track(Modification, Removal)]`: `removed()` and `is_removed` are offered, the view is
granted, but the storage does not track removals, because the constant of that tracking type is
`0b10 & 0b1010`. A component is removed at 3; nothing is ever reported. -/
theorem C65_fails : WellFormed ["Modification", "Removal"] ∧ Declared ["Modification", "Removal"] .removal ∧
    derive ["Modification", "Removal"] = some .modificationAndRemoval ∧ Offers .modificationAndRemoval .removal = true ∧
    ∃ (h : List (Event Nat)) (s : SparseSet Nat) (v : View Nat), Run (newFor .modificationAndRemoval) h s ∧
      (eb, 3) ∈ removedLog h ∧ borrowView .modificationAndRemoval s none 4 = some v ∧
      InWindow 3 v.lastRemovalOrDeletion v.current ∧ v.removed = [] ∧ Track.isRemoved .modificationAndRemoval v eb = false ∧
      removedOrDeleted .modificationAndRemoval v = [] := by
  refine ⟨?_, by decide, by decide, rfl, ?_⟩
  · intro t ht
    simp at ht
    rcases ht with rfl | rfl <;> simp
  · have h1 := (Run.nil (s0 := (newFor .modificationAndRemoval : SparseSet Nat))).snoc
      (Step.insert (e := eb) (v := 20) (now := 1) (by decide) rfl)
    have h2 := h1.snoc (Step.remove (e := eb) (now := 3) (by decide) rfl)
    exact ⟨_, _, _, h2, by decide, rfl, by decide, by decide, by decide, by decide⟩

/-! ## C66 -/

/-- C66. A view of tracking type `k` is granted exactly when the storage tracks what `k` stands for; so a view whose
type offers `inserted()`, `modified()` or `deleted()` is over a storage that tracks them. -/
theorem C66_borrow (k : Kind) (s : SparseSet T) (lastRun : Option Nat) (current : Nat) :
    ((borrowView k s lastRun current).isSome = true ↔ (k.trackInsertion = true → s.trkIns = true) ∧
      (k.trackModification = true → s.trkMod = true) ∧ (k.trackDeletion = true → s.trkDel = true) ∧
      (k.trackRemoval = true → s.trkRem = true)) ∧
    ∀ v, borrowView k s lastRun current = some v → v.set = s ∧ ∀ w, w ≠ .removal → Offers k w = true → Tracked s w = true := by
  have hc : checkTracking k s = true ↔ (k.trackInsertion = true → s.trkIns = true) ∧
      (k.trackModification = true → s.trkMod = true) ∧ (k.trackDeletion = true → s.trkDel = true) ∧
      (k.trackRemoval = true → s.trkRem = true) := by
    unfold checkTracking
    generalize k.trackInsertion = a, k.trackModification = b, k.trackDeletion = c, k.trackRemoval = d
    generalize s.trkIns = a', s.trkMod = b', s.trkDel = c', s.trkRem = d'
    cases a <;> cases b <;> cases c <;> cases d <;> cases a' <;> cases b' <;> cases c' <;> cases d' <;> simp
  refine ⟨?_, ?_⟩
  · rw [← hc]
    unfold borrowView
    cases checkTracking k s <;> simp
  · intro v hv
    unfold borrowView at hv
    split at hv
    · rename_i h
      injection hv with hv
      subst hv
      obtain ⟨h1, h2, h3, _⟩ := hc.1 h
      obtain ⟨t1, t2, t3, _⟩ := kind_tracks k
      refine ⟨rfl, fun w hw ho => ?_⟩
      cases w
      · exact h1 (t1.trans ho)
      · exact h2 (t2.trans ho)
      · exact h3 (t3.trans ho)
      · exact absurd rfl hw
    · cases hv

/-- C66. Building a workload with a view of type `k` (or `World::track_*`) makes the storage track what `k` stands for,
keeps what it tracked already and changes no component and no log; afterwards the view is granted. -/
theorem C66_enable (k : Kind) (s : SparseSet T) :
    (∀ w, Tracked (enableTracking k s) w = (Tracked s w || match w with
      | .insertion => k.trackInsertion | .modification => k.trackModification
      | .deletion => k.trackDeletion | .removal => k.trackRemoval)) ∧
    (∀ e, (enableTracking k s).get e = s.get e) ∧ (enableTracking k s).dense = s.dense ∧
    (enableTracking k s).data = s.data ∧ (enableTracking k s).removalData = s.removalData ∧
    (enableTracking k s).deletionData = s.deletionData ∧
    (∀ lastRun current, (borrowView k (enableTracking k s) lastRun current).isSome = true) := by
  have hf : (enableTracking k s).sparse = s.sparse ∧ (enableTracking k s).dense = s.dense ∧
      (enableTracking k s).data = s.data ∧ (enableTracking k s).removalData = s.removalData ∧
      (enableTracking k s).deletionData = s.deletionData ∧
      (enableTracking k s).trkIns = (s.trkIns || k.trackInsertion) ∧
      (enableTracking k s).trkMod = (s.trkMod || k.trackModification) ∧
      (enableTracking k s).trkDel = (s.trkDel || k.trackDeletion) ∧
      (enableTracking k s).trkRem = (s.trkRem || k.trackRemoval) := by
    unfold enableTracking SparseSet.trackInsertion SparseSet.trackModification SparseSet.trackDeletion SparseSet.trackRemoval
    cases k.trackInsertion <;> cases k.trackModification <;> cases k.trackDeletion <;> cases k.trackRemoval <;>
      cases h1 : s.trkIns <;> cases h2 : s.trkMod <;> cases h3 : s.trkDel <;> cases h4 : s.trkRem <;> simp [h1, h2, h3, h4]
  obtain ⟨f1, f2, f3, f4, f5, f6, f7, f8, f9⟩ := hf
  refine ⟨?_, ?_, f2, f3, f4, f5, ?_⟩
  · intro w
    cases w
    · exact f6
    · exact f7
    · exact f8
    · exact f9
  · intro e
    unfold SparseSet.get SparseSet.indexOf
    rw [f1, f3]
  · intro l c
    rw [(C66_borrow k _ l c).1, f6, f7, f8, f9]
    exact ⟨fun h => by rw [h, Bool.or_true], fun h => by rw [h, Bool.or_true], fun h => by rw [h, Bool.or_true],
      fun h => by rw [h, Bool.or_true]⟩

/-- C66. `track_all` turns everything on and changes no component and no log; the view of any tracking type can then be borrowed. -/
theorem C66_track_all (s : SparseSet T) :
    (∀ w, Tracked (trackAll s) w = true) ∧ (∀ e, (trackAll s).get e = s.get e) ∧ (trackAll s).dense = s.dense ∧
    (trackAll s).data = s.data ∧ (trackAll s).removalData = s.removalData ∧ (trackAll s).deletionData = s.deletionData ∧
    (∀ k lastRun current, (borrowView k (trackAll s) lastRun current).isSome = true) := by
  have he : trackAll s = enableTracking .all s := rfl
  rw [he]
  obtain ⟨h1, h2, h3, h4, h5, h6, _⟩ := C66_enable .all s
  have ht : ∀ w, Tracked (enableTracking .all s) w = true := by
    intro w
    rw [h1 w]
    cases w <;> exact Bool.or_true _
  refine ⟨ht, h2, h3, h4, h5, h6, fun k l c => ?_⟩
  rw [(C66_borrow k _ l c).1]
  exact ⟨fun _ => ht .insertion, fun _ => ht .modification, fun _ => ht .deletion, fun _ => ht .removal⟩

/-- C66. A storage that did not track insertions is made to, after the calls `h1`; then come the calls `h2`. A component
is reported as inserted exactly when it was inserted by a call of `h2` at a timestamp in the window: what was there
before is not reported. -/
theorem C66_inserted_since_partial {b c d : Bool} {h1 h2 : List (Event T)} {s : SparseSet T}
    (hr : Run (SparseSet.new false b c d) (h1 ++ .trackInsertion :: h2) s) (hf : Event.trackInsertion ∉ h1)
    (hn : NoTakeover (h1 ++ .trackInsertion :: h2)) {e : EId} (he : Valid e) (v : View T) (hv : v.set = s) :
    ∃ i, v.isInserted e = .ok i ∧ (i = true ↔ (∃ x, s.get e = .ok (some x)) ∧ ∃ t, bornAt h2 e = some t ∧
      InWindow t v.lastInsertion v.current) := by
  obtain ⟨L, hL⟩ := SparseSet.run_abs hr
  have hg := run_good hr hn
  have hsp : h1 ++ Event.trackInsertion :: h2 = (h1 ++ [.trackInsertion]) ++ h2 := by simp
  rw [hsp] at hL hg
  rw [after_append] at hL
  have ht := after_trkIns (Sto.init false b c d : Sto T) h1 rfl hf
  refine inserted_from hL (good_split hg).2 ?_ he ?_ v hv
  · rw [after_snoc]; rfl
  · intro r hro
    rw [after_snoc, rowOf_eq] at hro
    have h3 := hro.1
    change (if (after (Sto.init false b c d) h1).trkIns then _ else fun j => ((after (Sto.init false b c d) h1).rows j).map
      fun r => { r with ins := 0 }) e.idx = some r at h3
    rw [ht] at h3
    simp only [Bool.false_eq_true, if_false] at h3
    cases hrow : (after (Sto.init false b c d) h1).rows e.idx with
    | none => rw [hrow] at h3; cases h3
    | some row => rw [hrow] at h3; simp at h3; rw [← h3]

/-- C66. The same for modifications. -/
theorem C66_modified_since_partial {a c d : Bool} {h1 h2 : List (Event T)} {s : SparseSet T}
    (hr : Run (SparseSet.new a false c d) (h1 ++ .trackModification :: h2) s) (hf : Event.trackModification ∉ h1)
    (hn : NoTakeover (h1 ++ .trackModification :: h2)) {e : EId} (he : Valid e) (v : View T) (hv : v.set = s) :
    ∃ m, v.isModified e = .ok m ∧ (m = true ↔ (∃ x, s.get e = .ok (some x)) ∧ ∃ t, writtenAt h2 e = some t ∧
      InWindow t v.lastModification v.current) := by
  obtain ⟨L, hL⟩ := SparseSet.run_abs hr
  have hg := run_good hr hn
  have hsp : h1 ++ Event.trackModification :: h2 = (h1 ++ [.trackModification]) ++ h2 := by simp
  rw [hsp] at hL hg
  rw [after_append] at hL
  have ht := after_trkMod (Sto.init a false c d : Sto T) h1 rfl hf
  refine modified_from hL (good_split hg).2 ?_ he ?_ v hv
  · rw [after_snoc]; rfl
  · intro r hro
    rw [after_snoc, rowOf_eq] at hro
    have h3 := hro.1
    change (if (after (Sto.init a false c d) h1).trkMod then _ else fun j => ((after (Sto.init a false c d) h1).rows j).map
      fun r => { r with mod := 0 }) e.idx = some r at h3
    rw [ht] at h3
    simp only [Bool.false_eq_true, if_false] at h3
    cases hrow : (after (Sto.init a false c d) h1).rows e.idx with
    | none => rw [hrow] at h3; cases h3
    | some row => rw [hrow] at h3; simp at h3; rw [← h3]

/-- C66. The same for removals and deletions: the logs hold what was removed and deleted since tracking was turned
on. -/
theorem C66_logs_since_partial {a b c d : Bool} {h1 h2 : List (Event T)} {s : SparseSet T} :
    (Run (SparseSet.new a b c false) (h1 ++ .trackRemoval :: h2) s → Event.trackRemoval ∉ h1 →
      s.removalData = removedLog h2) ∧
    (Run (SparseSet.new a b false d) (h1 ++ .trackDeletion :: h2) s → Event.trackDeletion ∉ h1 →
      NoTakeover (h1 ++ .trackDeletion :: h2) → s.deletionData = deletedLog h2) := by
  refine ⟨fun hr hf => ?_, fun hr hf hn => ?_⟩
  · obtain ⟨L, hL⟩ := SparseSet.run_abs hr
    rw [hL.removed, show h1 ++ Event.trackRemoval :: h2 = (h1 ++ [.trackRemoval]) ++ h2 by simp, after_append, after_snoc]
    obtain ⟨h3, _⟩ := after_untracked_removed (Sto.init a b c false : Sto T) h1 rfl rfl hf
    exact after_removed _ _ h2 h3 rfl
  · obtain ⟨L, hL⟩ := SparseSet.run_abs hr
    rw [hL.deleted hn, show h1 ++ Event.trackDeletion :: h2 = (h1 ++ [.trackDeletion]) ++ h2 by simp, after_append, after_snoc]
    obtain ⟨h3, _⟩ := after_untracked_deleted (Sto.init a b false d : Sto T) h1 rfl rfl hf
    exact after_deleted _ _ h2 h3 rfl

/-- One turn of the loop is what `(&mut view).get(e)` followed by a write does. -/
theorem iterStep_modify {P : Prop} {s : SparseSet T} {A : Sto T} {L : List (SparseSet.Cell T)} (hL : SparseSet.Abs P s A L)
    (hp : P) (k : Kind) (hk : k.yieldsMut = s.trkMod) (now : Nat) (f : EId → T → Option T) {i : Nat} {c : SparseSet.Cell T}
    (hi : L[i]? = some c) :
    Valid c.id ∧ match f c.id c.val with
      | none => iterStep k now f s i = .ok s
      | some y => ∃ s', iterStep k now f s i = .ok s' ∧ s.modify c.id now (fun _ => y) = .ok (true, s') ∧
          s'.dense = s.dense ∧ s'.data = s.data.set i y ∧ s'.trkMod = s.trkMod := by
  have hcell := hL.ok.cells c (List.mem_of_getElem? hi)
  have hgen := hL.clean hp c (List.mem_of_getElem? hi)
  have hval : Valid c.id := ⟨by rw [← hgen]; exact hcell.1, hcell.2.2.2⟩
  refine ⟨hval, ?_⟩
  have hsh := hL.shape
  have hd : s.dense[i]? = some c.id := by rw [hsh]; simp [SparseSet.build, hi]
  have hx : s.data[i]? = some c.val := by rw [hsh]; simp [SparseSet.build, hi]
  have hlt : i < s.data.length := SparseSet.getElem?_lt hx
  have hidx : s.indexOf c.id = .ok (some i) := by
    rw [hsh]
    rcases SparseSet.indexOf_ok (s := s) hL.ok c.id hval.1 with ⟨h1, _⟩ | ⟨j, c', hj, hce, _, h2⟩
    · exact absurd ⟨rfl, hgen⟩ (h1 c (List.mem_of_getElem? hi))
    · rw [h2, (hL.ok.inj hj hi hce).1]
  unfold iterStep vecGetU
  rw [hd, hx]
  simp only [bind, Except.bind]
  cases hf : f c.id c.val with
  | none => rfl
  | some y =>
    simp only
    have hm : ∃ m, setUIf k.yieldsMut s.modificationData i now = .ok m := by
      unfold setUIf vecSetU
      rw [hk]
      cases ht : s.trkMod with
      | false => exact ⟨_, rfl⟩
      | true =>
        have : s.modificationData.length = s.data.length := by
          rw [hsh]; simp [SparseSet.build, ht]
        rw [if_pos rfl, if_pos (by rw [this]; exact hlt)]
        exact ⟨_, rfl⟩
    obtain ⟨m, hm⟩ := hm
    refine ⟨{ s with data := s.data.set i y, modificationData := m }, ?_, ?_, rfl, rfl, rfl⟩
    · rw [hm]
      simp only [vecSetU, if_pos hlt]
    · unfold SparseSet.modify vecGetU
      rw [hidx]
      simp only [bind, Except.bind]
      rw [← hk, hm, hx]
      simp only [vecSetU, if_pos hlt]

theorem iterFrom_run {s0 : SparseSet T} (habs : ∀ h s, Run s0 h s → ∃ A L, SparseSet.Abs (NoTakeover h) s A L)
    (k : Kind) (now : Nat) (f : EId → T → Option T) (n : Nat) :
    ∀ (i : Nat) (h : List (Event T)) (s : SparseSet T), Run s0 h s → NoTakeover h → k.yieldsMut = s.trkMod →
      i + n = s.dense.length →
      ∃ s', iterFrom k now f s i n = .ok s' ∧
        Run s0 (h ++ (((s.dense.zip s.data).drop i).filterMap fun x => (f x.1 x.2).map fun y => Event.wrote [(x.1, y)] now)) s' := by
  induction n with
  | zero =>
    intro i h s hr _ _ hi
    refine ⟨s, rfl, ?_⟩
    rw [List.drop_eq_nil_of_le (by rw [List.length_zip]; omega)]
    simpa using hr
  | succ n ih =>
    intro i h s hr hn hk hi
    obtain ⟨A, L, hL⟩ := habs h s hr
    have hlen : s.dense.length = L.length := by rw [hL.shape]; simp [SparseSet.build]
    have hlen2 : s.data.length = L.length := by rw [hL.shape]; simp [SparseSet.build]
    have hil : i < L.length := by omega
    have hc : L[i]? = some L[i] := List.getElem?_eq_getElem hil
    obtain ⟨hv, hstep⟩ := iterStep_modify hL hn k hk now f hc
    have hd : s.dense[i]? = some L[i].id := by rw [hL.shape]; simp [SparseSet.build, hil]
    have hx : s.data[i]? = some L[i].val := by rw [hL.shape]; simp [SparseSet.build, hil]
    have hzl : i < (s.dense.zip s.data).length := by rw [List.length_zip]; omega
    have hz : (s.dense.zip s.data)[i] = (L[i].id, L[i].val) := by
      have h1 := (List.getElem?_eq_some_iff.1 hd).2
      have h2 := (List.getElem?_eq_some_iff.1 hx).2
      rw [List.getElem_zip, h1, h2]
    rw [List.drop_eq_getElem_cons hzl, hz, List.filterMap_cons]
    unfold iterFrom
    cases hf : f L[i].id L[i].val with
    | none =>
      rw [hf] at hstep
      simp only at hstep
      rw [hstep]
      simp only [bind, Except.bind, Option.map_none]
      exact ih (i + 1) h s hr hn hk (by omega)
    | some y =>
      rw [hf] at hstep
      simp only at hstep
      obtain ⟨s1, e1, e2, e3, e4, e5⟩ := hstep
      rw [e1]
      simp only [bind, Except.bind, Option.map_some]
      have hr1 := hr.snoc (Step.write hv e2)
      have hn1 : NoTakeover (h ++ [Event.wrote [(L[i].id, y)] now]) := by
        intro e v t hm
        rw [List.mem_append, List.mem_singleton] at hm
        rcases hm with hm | hm
        · exact hn e v t hm
        · cases hm
      obtain ⟨s', h1, h2⟩ := ih (i + 1) _ s1 hr1 hn1 (by rw [hk, e5]) (by rw [e3]; omega)
      refine ⟨s', h1, ?_⟩
      have hdrop : (s1.dense.zip s1.data).drop (i + 1) = (s.dense.zip s.data).drop (i + 1) := by
        rw [e3, e4, List.zip, List.drop_zipWith, List.drop_zipWith, List.drop_set_of_lt (by omega)]
      rw [hdrop] at h2
      rw [List.append_cons]
      exact h2

/-- C66. A loop over `(&mut view).iter()` writing to some of the components, on a storage tracking modifications exactly
when the type of the view does, is the same as getting the chosen components one by one and writing them: so the
writes are reported as modifications when they are tracked. -/
theorem C66_iter_mut_partial {a b c d : Bool} {h : List (Event T)} {s : SparseSet T} (hr : Run (SparseSet.new a b c d) h s)
    (hn : NoTakeover h) (k : Kind) (hk : k.yieldsMut = s.trkMod) (now : Nat) (f : EId → T → Option T) :
    ∃ s', iterMut k now f s = .ok s' ∧ Run (SparseSet.new a b c d)
      (h ++ ((s.dense.zip s.data).filterMap fun x => (f x.1 x.2).map fun y => Event.wrote [(x.1, y)] now)) s' := by
  have := iterFrom_run (s0 := SparseSet.new a b c d) (fun h s hr => ⟨_, SparseSet.run_abs hr⟩) k now f s.dense.length 0 h s
    hr hn hk (by omega)
  simpa [iterMut] using this

/-- What is handed out by iterators is decided by the type of the view: `Mut` exactly for those that track
modifications. -/
theorem C66_yields (k : Kind) : k.yieldsMut = k.trackModification := by cases k <;> rfl

/-- C66 is false of loops over a view whose type does not track modifications, over a storage that does since tracking
was turned on at run time: the component is written, `is_modified` does not report it. Writing through `get` is
reported. -/
theorem C66_iter_mut_fails : ∃ (h : List (Event Nat)) (s s1 s2 : SparseSet Nat) (v : View Nat),
    Run (newFor .untracked) h s ∧ Event.trackModification ∈ h ∧ borrowView .untracked s none 3 = some v ∧
    iterMut .untracked v.current (fun _ x => some (x + 1)) v.set = .ok s1 ∧ s1.get ea = .ok (some 11) ∧
    (View.new s1 none 4).isModified ea = .ok false ∧
    v.set.modify ea v.current (fun x => x + 1) = .ok (true, s2) ∧ s2.get ea = .ok (some 11) ∧
    (View.new s2 none 4).isModified ea = .ok true := by
  have h1 := (Run.nil (s0 := (newFor .untracked : SparseSet Nat))).snoc
    (Step.insert (e := ea) (v := 10) (now := 1) (by decide) rfl)
  have h2 := h1.snoc Step.trackModification
  exact ⟨_, _, _, _, _, h2, by simp, rfl, rfl, rfl, rfl, rfl, rfl, rfl⟩

/-- C66 is false when the storage is replaced through the `DerefMut` of the view: `*view = SparseSet::new_custom_storage()`.
The view was granted because the storage tracked insertions; the new storage does not, and `inserted()` reads its
timestamps out of bounds. -/
theorem C66_replace_fails : ∃ (s s' : SparseSet Nat) (v : View Nat) (r : InsertionResult Nat),
    s = (newFor .untracked : SparseSet Nat).trackInsertion ∧ borrowView .insertion s none 3 = some v ∧
    (newFor .untracked : SparseSet Nat).insert ea 10 v.current = .ok (r, s') ∧
    IterSpec.runFold (.flag .inserted false (Iter.Win.ofView { v with set := s' })) = .error .oob :=
  ⟨_, _, _, _, rfl, rfl, rfl, rfl⟩

/-- A storage that starts to track everything after `a` was inserted; then `b` is inserted and removed, `a` written. -/
example : ∃ s : SparseSet Nat, Run (newFor .untracked)
    ([.inserted ea 10 1 .inserted] ++ Event.trackInsertion :: [.trackModification, .trackDeletion, .trackRemoval,
      .inserted eb 20 2 .inserted, .wrote [(ea, 11)] 3, .removed eb 3 (some 20)]) s ∧ s.removalData = [(eb, 3)] ∧
    (View.new s none 9).isInserted ea = .ok false ∧ (View.new s none 9).isModified ea = .ok true := by
  have h1 := (Run.nil (s0 := (newFor .untracked : SparseSet Nat))).snoc
    (Step.insert (e := ea) (v := 10) (now := 1) (by decide) rfl)
  have h2 := (((h1.snoc Step.trackInsertion).snoc Step.trackModification).snoc Step.trackDeletion).snoc Step.trackRemoval
  have h3 := h2.snoc (Step.insert (e := eb) (v := 20) (now := 2) (by decide) rfl)
  have h4 := h3.snoc (Step.write (e := ea) (v := 11) (now := 3) (by decide) rfl)
  have h5 := h4.snoc (Step.remove (e := eb) (now := 3) (by decide) rfl)
  exact ⟨_, h5, rfl, rfl, rfl⟩

example : (borrowView .all (newFor .modificationAndRemoval : SparseSet Nat) none 3).isSome = false ∧
    (borrowView .all (enableTracking .all (newFor .modificationAndRemoval : SparseSet Nat)) none 3).isSome = true :=
  ⟨rfl, rfl⟩

end Verif.TrkSpec
