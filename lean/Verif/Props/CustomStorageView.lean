import Verif.Lemmas.CustomStorageView
import Verif.Props.StorageMap
import Verif.Props.Tracking
import Verif.Props.SparseSet

/-!
# Views of storages given by their id: C98

`Reach` are the histories of the storages of a world (`Verif/Spec/StorageMap.lean`), `Run` those of one component storage
(`Verif/Spec/Storage.lean`).
-/
namespace Verif.StorageMap
open Verif.Borrow

/-- C98. When `new_for_custom_storage` succeeds and what it does otherwise is settled by whether there is a storage under the id, the
thread, the guards that exist and the type of the storage. A view is one guard more; dropping it brings back the state before the
call. The guard on `AllStorages` stays in the view and is given back in every other case; a storage of another type is not left
borrowed. -/
theorem C98_view {std : Bool} {main : Nat} {h : List (Nat × Ev)} {s : St} (hr : Reach std main h s) (hp : s.poisoned = false)
    (all : Nat) (me : Nat) (id : Id) (t : Nat) (excl : Bool) :
    (¬ Present s id → newForCustom s all me id t excl = (s, all - 1, .missing))
    ∧ (Present s id → ¬ ThreadFits s id excl me → newForCustom s all me id t excl = (s, all - 1, .refused id .wrongThread))
    ∧ (Present s id → ThreadFits s id excl me → ¬ Room s id excl →
        newForCustom s all me id t excl = (s, all - 1, .refused id (if excl then .unique else .shared)))
    ∧ (Present s id → ThreadFits s id excl me → Room s id excl → typeAt s id = some ⟨.new, .set t⟩ →
        ∃ s' g, newForCustom s all me id t excl = (s', all, .view g) ∧ On s' id g ∧ g.excl = excl ∧ g.thr = me
          ∧ s'.guards = s.guards ++ [g] ∧ s'.map = s.map ∧ (∀ i, typeAt s' i = typeAt s i)
          ∧ s'.unguard s.guards.length g = s)
    ∧ (Present s id → ThreadFits s id excl me → Room s id excl → typeAt s id ≠ some ⟨.new, .set t⟩ →
        ∃ ty, typeAt s id = some ty ∧ newForCustom s all me id t excl = (s, all - 1, .wrongType ty)) := by
  have hv := reach_inv hr
  have hs : newForCustom s all me id t excl = (match s.find me id none excl with
    | (s', .guard g) =>
      if g.ty = ⟨.new, .set t⟩ then (s', all, .view g)
      else (s'.unguard (s'.guards.length - 1) g, all - 1, .wrongType g.ty)
    | (s', .refused i e) => (s', all - 1, .refused i e)
    | (s', .missing) => (s', all - 1, .missing)
    | (s', _) => (s', all - 1, .panic)) := by
    unfold newForCustom
    rw [hp]
    rfl
  rw [hs]
  refine ⟨?_, ?_⟩
  · intro hn
    have : s.find me id none excl = (s, .missing) := by
      unfold St.find
      cases hl : look s.map id with
      | none => rfl
      | some a => exact absurd ⟨a, hl⟩ hn
    rw [this]
  · by_cases hpr : Present s id
    · obtain ⟨a, hl⟩ := hpr
      have hf : s.find me id none excl = s.grab me a none excl id := by unfold St.find; rw [hl]
      rw [hf]
      obtain ⟨ty, hty, hc⟩ := grab_spec hv hl me none excl id
      rw [hty]
      rcases hc with ⟨h1, he⟩ | ⟨h1, h2, he⟩ | ⟨h1, h2, h3, s', he, h4, h5, h6⟩ | ⟨h1, h2, ⟨t, h3, h4⟩, he⟩
      · exact ⟨fun _ _ => by rw [he], fun _ h => absurd h h1, fun _ h => absurd h h1, fun _ h => absurd h h1⟩
      · exact ⟨fun _ h => absurd h1 h, fun _ _ _ => by rw [he], fun _ _ h => absurd h h2, fun _ _ h => absurd h h2⟩
      · have hu := grab_unguard he
        refine ⟨fun _ h => absurd h1 h, fun _ _ h => absurd h2 h, fun _ _ _ e => ?_, fun _ _ _ e => ?_⟩
        · injection e with e
          refine ⟨s', ⟨a, ty, excl, me⟩, ?_, ⟨?_, ?_⟩, rfl, rfl, h4, h5, h6, hu.2⟩
          · rw [he]
            show (if ty = _ then _ else _) = _
            rw [if_pos e]
          · rw [h4]; simp
          · rw [h5]; exact hl
        · refine ⟨ty, rfl, ?_⟩
          rw [he]
          show (if ty = _ then _ else _) = _
          rw [if_neg (fun h => e (by rw [h]))]
          have hlen : s'.guards.length - 1 = s.guards.length := by rw [h4]; simp
          rw [hlen, hu.2]
      · cases h3
    · exact ⟨fun h => absurd h hpr, fun h => absurd h hpr, fun h => absurd h hpr, fun h => absurd h hpr⟩

/-- A world with the storage of the components of type 5, made by thread 1 and not borrowed: all five cases. A view of the components of
type 6 under the same id is refused; while thread 1 holds a view, an exclusive one is refused. -/
example : ∃ s, Reach true 0 [(1, .orInsert (compReq 5 false)), (1, .insert 0 true), (1, .drop 0)] s ∧ s.guards = []
    ∧ newForCustom s 1 0 (.custom 0) 5 true = (s, 0, .missing)
    ∧ newForCustom s 1 0 (compId 5) 6 true = (s, 0, .wrongType ⟨.new, .set 5⟩)
    ∧ ∃ s' g, newForCustom s 1 1 (compId 5) 5 false = (s', 1, .view g) ∧ g.ty = ⟨.new, .set 5⟩
      ∧ newForCustom s' 2 2 (compId 5) 5 true = (s', 1, .refused (compId 5) .unique) := by
  refine ⟨_, played rfl, rfl, rfl, ?_, _, _, rfl, rfl, rfl⟩
  have hr : Reach true 0 [(1, .orInsert (compReq 5 false)), (1, .insert 0 true), (1, .drop 0)] _ := played rfl
  obtain ⟨ty, h1, h2⟩ := (C98_view hr rfl 1 0 (compId 5) 6 true).2.2.2.2 ⟨1, rfl⟩
    (fun a b hl hb => by cases hl; cases hb; intro h; exact absurd rfl h) (fun a b hl hb => by
      cases hl; cases hb
      exact fun g hg => by cases hg) (by decide)
  rw [h2]
  cases h1
  rfl

/-- Claim: the storage of components that cannot be sent can be viewed through its id as well. It is kept in another type, which the
call does not know. -/
theorem C98_non_send_fails : ∃ s, Reach true 0 [(0, .orInsert ⟨.of ⟨.nonSend, .set 5⟩, ⟨.nonSend, .set 5⟩, .nonSend, false⟩), (0, .insert 0 true), (0, .drop 0)] s
    ∧ newForCustom s 1 0 (.of ⟨.nonSend, .set 5⟩) 5 true = (s, 0, .wrongType ⟨.nonSend, .set 5⟩) := by
  have hr : Reach true 0 [(0, .orInsert ⟨.of ⟨.nonSend, .set 5⟩, ⟨.nonSend, .set 5⟩, .nonSend, false⟩), (0, .insert 0 true), (0, .drop 0)] _ := played rfl
  refine ⟨_, hr, ?_⟩
  obtain ⟨ty, h1, h2⟩ := (C98_view hr rfl 1 0 (.of ⟨.nonSend, .set 5⟩) 5 true).2.2.2.2 ⟨1, rfl⟩
    (fun a b hl hb => by cases hl; cases hb; intro _ _; rfl) (fun a b hl hb => by
      cases hl; cases hb
      exact fun g hg => by cases hg) (by decide)
  rw [h2]
  cases h1
  rfl

end Verif.StorageMap

namespace Verif.TrkSpec
open StoSpec Tracking
variable {T : Type}

/-- C98. What the calls through such a view return, and the components after them, are the same as through a view of any other
timestamp. -/
theorem C98_data {a b c d : Bool} {h : List (Event T)} {s : SparseSet T} (hr : Run (SparseSet.new a b c d) h s) {e : EId}
    (he : Valid e) (x : T) (now : Nat) :
    (∀ r r' s1 s2, customInsert s e x = .ok (r, s1) → s.insert e x now = .ok (r', s2) →
        r.wasInserted = r'.wasInserted ∧ ∀ e', Valid e' → s1.get e' = s2.get e')
    ∧ (∀ s1 s2, customWrite s e x = .ok (true, s1) → s.modify e now (fun _ => x) = .ok (true, s2) →
        ∀ e', Valid e' → s1.get e' = s2.get e')
    ∧ (∀ r r' s1 s2, customRemove s e = .ok (r, s1) → s.dynRemove e now = .ok (r', s2) →
        r = r' ∧ ∀ e', Valid e' → s1.get e' = s2.get e')
    ∧ (∀ r r' s1 s2, customDelete s e = .ok (r, s1) → s.dynDelete e now = .ok (r', s2) →
        r = r' ∧ ∀ e', Valid e' → s1.get e' = s2.get e') := by
  refine ⟨fun r r' s1 s2 h1 h2 => ?_, fun s1 s2 h1 h2 => ?_, fun r r' s1 s2 h1 h2 => ?_, fun r r' s1 s2 h1 h2 => ?_⟩
  · have k1 := Step.insert he h1
    have k2 := Step.insert he h2
    refine ⟨?_, fun e' he' => ?_⟩
    · rw [((SparseSet.C12_results hr k1).1 _ _ _ _ rfl).1, ((SparseSet.C12_results hr k2).1 _ _ _ _ rfl).1]
    · rw [SparseSet.C12_reads_last_write (hr.snoc k1) e' he', SparseSet.C12_reads_last_write (hr.snoc k2) e' he']
      simp only [after, List.foldl_append, List.foldl_cons, List.foldl_nil, step, lookup, setRow, insertRow]
      generalize (List.foldl step (Sto.init a b c d) h) = A
      cases A.rows e.idx with
      | none => split <;> simp
      | some r =>
        by_cases h1 : e'.idx = e.idx
        · simp only [h1, if_true]
          by_cases h2 : r.gen = e.gen
          · simp only [h2, if_true, Option.bind_some]
          · by_cases h3 : r.gen < e.gen
            · simp only [h2, h3, if_true, if_false, Option.bind_some]
            · simp only [h2, h3, if_false]
        · simp only [h1, if_false]
  · have k1 := Step.write he h1
    have k2 := Step.write he h2
    intro e' he'
    rw [SparseSet.C12_reads_last_write (hr.snoc k1) e' he', SparseSet.C12_reads_last_write (hr.snoc k2) e' he']
    simp only [after, List.foldl_append, List.foldl_cons, List.foldl_nil, step, lookup, setRow, writeRows]
    generalize (List.foldl step (Sto.init a b c d) h) = A
    split
    · cases A.rows e.idx with
      | none => rfl
      | some r => rfl
    · rfl
  · have k1 := Step.remove he h1
    have k2 := Step.remove he h2
    refine ⟨?_, fun e' he' => ?_⟩
    · rw [(SparseSet.C12_results hr k1).2.1 _ _ _ rfl, (SparseSet.C12_results hr k2).2.1 _ _ _ rfl]
    · rw [SparseSet.C12_reads_last_write (hr.snoc k1) e' he', SparseSet.C12_reads_last_write (hr.snoc k2) e' he']
      simp only [after, List.foldl_append, List.foldl_cons, List.foldl_nil, step, lookup, setRow, removeRow]
  · obtain ⟨o, ho⟩ := (SparseSet.C12_total hr).2.2.2.2.1 e he
    have k1 := Step.delete he ho h1
    have k2 := Step.delete he ho h2
    refine ⟨?_, fun e' he' => ?_⟩
    · rw [((SparseSet.C12_results hr k1).2.2 _ _ _ rfl).2 _ h1, ((SparseSet.C12_results hr k2).2.2 _ _ _ rfl).2 _ h2]
    · rw [SparseSet.C12_reads_last_write (hr.snoc k1) e' he', SparseSet.C12_reads_last_write (hr.snoc k2) e' he']
      simp only [after, List.foldl_append, List.foldl_cons, List.foldl_nil, step, lookup, setRow, removeRow]

/-- C98 is false for tracking. A component inserted through such a view is not reported as inserted, a component written through it
is not reported as modified, not even when another view had written it before and that was not yet seen; removals and deletions
through it are reported by no view. This holds in every state and for every view, also views made later. -/
theorem C98_tracking_fails {c d : Bool} {h : List (Event T)} {s : SparseSet T}
    (hr : Run (SparseSet.new true true c d) h s) (hn : NoTakeover h) {e : EId} (he : Valid e) (x : T) :
    (∀ s', customInsert s e x = .ok (.inserted, s') → ∀ v : View T, v.set = s' → s'.get e = .ok (some x) ∧ v.isInserted e = .ok false)
    ∧ (∀ s', customWrite s e x = .ok (true, s') → ∀ v : View T, v.set = s' → s'.get e = .ok (some x) ∧ v.isModified e = .ok false)
    ∧ (∀ r s', customRemove s e = .ok (r, s') → ∀ v : View T, v.set = s' → v.removed = { v with set := s }.removed)
    ∧ (∀ r s', customDelete s e = .ok (r, s') → ∀ v : View T, v.set = s' → v.deleted = { v with set := s }.deleted) := by
  refine ⟨fun s' h1 v hv => ?_, fun s' h1 v hv => ?_, fun r s' h1 v hv => ?_, fun r s' h1 v hv => ?_⟩
  · have hr' := hr.snoc (Step.insert he h1)
    refine ⟨(SparseSet.C12_insert_get hr he h1).1 (by simp), ?_⟩
    obtain ⟨i, m, hi, _, hii, _⟩ := C24_flags_exact_partial hr' (fun e v now hm => by
      rcases List.mem_append.1 hm with hm | hm
      · exact hn _ _ _ hm
      · simp at hm) he v hv
    rw [hi]
    cases i with
    | false => rfl
    | true =>
      obtain ⟨_, t, ht, hw⟩ := hii.1 rfl
      have : bornAt (h ++ [.inserted e x (customView s).current .inserted]) e = some 0 := by
        simp [bornAt, births, customView]
      rw [this] at ht
      cases ht
      exact absurd hw.1 (Nat.not_lt_zero _)
  · have hr' := hr.snoc (Step.write he h1)
    refine ⟨SparseSet.modify_get h1, ?_⟩
    obtain ⟨i, m, _, hm, _, hmm⟩ := C24_flags_exact_partial hr' (fun e v now hm => by
      rcases List.mem_append.1 hm with hm | hm
      · exact hn _ _ _ hm
      · simp at hm) he v hv
    rw [hm]
    cases m with
    | false => rfl
    | true =>
      obtain ⟨_, t, ht, hw⟩ := hmm.1 rfl
      have : writtenAt (h ++ [.wrote [(e, x)] (customView s).current]) e = some 0 := by
        simp [writtenAt, writes, births, customView]
      rw [this] at ht
      cases ht
      exact absurd hw.1 (Nat.not_lt_zero _)
  · have hl := ((SparseSet.C16_one_entry (s' := s') hr he 0).1 r h1).2
    unfold View.removed
    rw [hv, hl, List.filterMap_append]
    by_cases hd : (s.trkRem && r.isSome) = true <;> simp [hd, isWithin]
  · obtain ⟨_, o, _, _, hl⟩ := (SparseSet.C16_one_entry (s' := s') hr he 0).2 r h1
    unfold View.deleted
    rw [hv, hl, List.filterMap_append]
    cases o with
    | none => simp
    | some v => by_cases hd : s.trkDel = true <;> simp [hd, isWithin]

/-- C98. Such a view itself reports nothing, whatever happened before. -/
theorem C98_reports_fails {c d : Bool} {h : List (Event T)} {s : SparseSet T}
    (hr : Run (SparseSet.new true true c d) h s) (hn : NoTakeover h) :
    (∀ e, Valid e → (customView s).isInserted e = .ok false ∧ (customView s).isModified e = .ok false)
    ∧ (customView s).removed = [] ∧ (customView s).deleted = [] := by
  refine ⟨fun e he => ?_, ?_, ?_⟩
  · obtain ⟨i, m, hi, hm, hii, hmm⟩ := C24_flags_exact_partial hr hn he (customView s) rfl
    rw [hi, hm]
    refine ⟨?_, ?_⟩
    · cases i with
      | false => rfl
      | true =>
        obtain ⟨_, t, _, h1, h2⟩ := hii.1 rfl
        exact absurd (Nat.lt_of_lt_of_le h1 h2) (Nat.not_lt_zero _)
    · cases m with
      | false => rfl
      | true =>
        obtain ⟨_, t, _, h1, h2⟩ := hmm.1 rfl
        exact absurd (Nat.lt_of_lt_of_le h1 h2) (Nat.not_lt_zero _)
  · unfold View.removed customView
    rw [List.filterMap_eq_nil_iff]
    intro a _
    rw [if_neg]
    simp only [isWithin, Bool.and_eq_true, decide_eq_true_eq]
    omega
  · unfold View.deleted customView
    rw [List.filterMap_eq_nil_iff]
    intro a _
    rw [if_neg]
    simp only [isWithin, Bool.and_eq_true, decide_eq_true_eq]
    omega

/-- The hypotheses hold in a storage with components that other views inserted and wrote, and the four calls succeed there. The
modification of `(0, 0)`, which a view with the window `(1, 5]` reports, is hidden by a later write through such a view. -/
example : Run (SparseSet.new true true true true) trkHist trkState ∧ NoTakeover trkHist
    ∧ (⟨trkState, 1, 1, 1, 5⟩ : View Nat).isModified ⟨0, 0⟩ = .ok true
    ∧ (∃ s', customWrite trkState ⟨0, 0⟩ 12 = .ok (true, s') ∧ (⟨s', 1, 1, 1, 5⟩ : View Nat).isModified ⟨0, 0⟩ = .ok false)
    ∧ (∃ s', customInsert trkState ⟨7, 0⟩ 12 = .ok (.inserted, s') ∧ (⟨s', 0, 0, 0, 9⟩ : View Nat).isInserted ⟨7, 0⟩ = .ok false)
    ∧ (∃ s', customRemove trkState ⟨0, 0⟩ = .ok (some 11, s') ∧ s'.removalData = [(⟨0, 0⟩, 0)])
    ∧ (∃ s', customDelete trkState ⟨0, 0⟩ = .ok (true, s') ∧ s'.deletionData = [(⟨0, 0⟩, 0, 11)]) :=
  ⟨trk_run, by intro e v now h; simp [trkHist] at h, by decide, ⟨_, rfl, by decide⟩, ⟨_, rfl, by decide⟩, ⟨_, rfl, rfl⟩, ⟨_, rfl, rfl⟩⟩

end Verif.TrkSpec
