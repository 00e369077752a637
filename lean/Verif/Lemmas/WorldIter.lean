import Verif.Spec.WorldIter
import Verif.Lemmas.WorldReach
import Verif.Lemmas.Iter

/-! Storages of reachable worlds, seen through views. -/
namespace Verif.WorldIter
open StoSpec IterSpec Iter TrkSpec
open World (reach_ok look)
open WSpec (Reach)
open EntSpec (Event)
variable {V : Type} {fl : Flags}

theorem reach_lives {wd : World V} {h : List Event} (hr : Reach fl wd h) {k : Nat} {s : SparseSet V}
    (hk : lookupK wd.stos k = some s) :
    ∃ a, Lives s a ∧ (∀ e, e.gen < 65535 → wd.get k e = .ok (lookup a.rows e)) ∧
      ∀ e v, lookup a.rows e = some v → wd.isAlive e = true := by
  obtain ⟨A, Q, hok⟩ := reach_ok hr
  have hsto := hok.sto k
  rw [hk] at hsto
  generalize hA : A k = ao at hsto
  cases hsto with
  | @some _ a L ha =>
    refine ⟨a, ha.lives, fun e he => ?_, fun e v hv => ?_⟩
    · rw [hok.get k he]; unfold look; rw [hA]; rfl
    · obtain ⟨row, hrow, hg⟩ : ∃ row, a.rows e.idx = some row ∧ row.gen = e.gen := by
        unfold lookup at hv
        cases hrow : a.rows e.idx with
        | none => rw [hrow] at hv; cases hv
        | some row =>
          rw [hrow] at hv
          simp only [Option.bind] at hv
          split at hv
          · exact ⟨row, rfl, by assumption⟩
          · cases hv
      have := hok.owned k a hA _ _ hrow
      rw [hg] at this
      exact this

/-- The table of the storage a window looks at. -/
noncomputable def tab (w : Win V) : Sto V :=
  open Classical in if h : ∃ a, Lives w.set a then h.choose else Sto.init false false false false

theorem of_reads {wd : World V} {h : List Event} (hr : Reach fl wd h) {v : Tracking.View V} (ho : Of wd v) :
    Reads (Win.ofView v) (tab (Win.ofView v)) := by
  obtain ⟨k, hk⟩ := ho
  obtain ⟨a, ha, _⟩ := reach_lives hr hk
  have hex : ∃ a, Lives (Win.ofView v).set a := ⟨a, ha⟩
  refine ⟨⟨v, rfl⟩, ?_⟩
  unfold tab
  rw [dif_pos hex]
  exact hex.choose_spec

theorem comp_eq {v : Tracking.View V} {a : Sto V} (h : Reads (Win.ofView v) a) {e : EId} (he : e.gen < 65535) :
    comp v e = lookup a.rows e := by
  obtain ⟨L, hL⟩ := h.2.abs
  unfold comp
  have := hL.get he
  rw [show (Win.ofView v).set = v.set from rfl] at this
  rw [this]

theorem comp_rowAt {v : Tracking.View V} {a : Sto V} (h : Reads (Win.ofView v) a) {e : EId} (he : e.gen < 65535) :
    comp v e = (rowAt a e).map (·.val) := by
  rw [comp_eq h he]
  unfold lookup rowAt
  cases a.rows e.idx with
  | none => rfl
  | some r =>
    simp only [Option.bind]
    split <;> rfl

theorem rowOf_rowAt (a : Sto V) (e : EId) : rowOf a e = rowAt a e := by
  apply Option.ext
  intro r
  rw [rowOf_eq, rowAt_eq]

theorem tracks_eq {v : Tracking.View V} {a : Sto V} (h : Reads (Win.ofView v) a) {k : Flag}
    (ht : SetTracks k v.set) : Tracks k a := by
  obtain ⟨L, hL⟩ := h.2.abs
  cases k with
  | inserted => exact hL.trkIns.symm.trans ht
  | modified => exact hL.trkMod.symm.trans ht
  | either => exact ⟨hL.trkIns.symm.trans ht.1, hL.trkMod.symm.trans ht.2⟩

theorem flagged_eq {v : Tracking.View V} {a : Sto V} (h : Reads (Win.ofView v) a) {k : Flag} (ht : Tracks k a)
    {e : EId} (he : e.gen < 65535) {r : Row V} (hrow : rowAt a e = some r) :
    flagged k v e ↔ Holds k (Win.ofView v) r := by
  obtain ⟨L, hL⟩ := h.2.abs
  obtain ⟨h1, h2⟩ := flags_ok hL he v rfl
  rw [rowOf_rowAt, hrow] at h1 h2
  cases k with
  | inserted =>
    unfold flagged
    simp only [h1 ht, Except.ok.injEq, isWithin_iff]
    rfl
  | modified =>
    unfold flagged
    simp only [h2 ht, Except.ok.injEq, isWithin_iff]
    rfl
  | either =>
    unfold flagged
    simp only [h1 ht.1, h2 ht.2, Except.ok.injEq, isWithin_iff]
    rfl

mutual
theorem over_fine {wd : World V} {h : List Event} (hr : Reach fl wd h) : (q : VQry V) → Over wd q → Fine tab q.qry
  | .view w, hq => by simp only [Over] at hq; simp only [VQry.qry, Fine]; exact of_reads hr hq
  | .opt w, hq => by simp only [Over] at hq; simp only [VQry.qry, Fine]; exact of_reads hr hq
  | .absent w _, hq => by simp only [Over] at hq; simp only [VQry.qry, Fine]; exact of_reads hr hq
  | .ids l, hq => by simp only [Over] at hq; simp only [VQry.qry, Fine]; exact hq
  | .flag k _ w, hq => by
    simp only [Over] at hq; simp only [VQry.qry, Fine]
    exact ⟨of_reads hr hq.1, tracks_eq (of_reads hr hq.1) hq.2⟩
  | .or a b, hq => by
    simp only [Over] at hq; simp only [VQry.qry, Fine]
    exact ⟨hq.1, hq.2.1, hq.2.2.1, hq.2.2.2.1, over_fine hr a hq.2.2.2.2.1, over_fine hr b hq.2.2.2.2.2⟩
  | .tup l, hq => by
    simp only [Over] at hq; simp only [VQry.qry, Fine]
    exact ⟨overs_fines hr l hq.1, hq.2⟩
theorem overs_fines {wd : World V} {h : List Event} (hr : Reach fl wd h) : (l : List (VQry V)) → Overs wd l →
    Fines tab (VQry.qrys l)
  | [], _ => by simp only [VQry.qrys, Fines]
  | q :: l, hq => by
    simp only [Overs] at hq; simp only [VQry.qrys, Fines]
    exact ⟨over_fine hr q hq.1, overs_fines hr l hq.2⟩
end

mutual
theorem item_seen : (q : VQry V) → Fine tab q.qry → (e : EId) → e.gen < 65535 → item tab q.qry e = seen q e
  | .view w, hq, e, he => by
    simp only [VQry.qry, Fine] at hq; simp only [VQry.qry, item, seen, comp_rowAt hq he, Option.map_map]; rfl
  | .opt w, hq, e, he => by
    simp only [VQry.qry, Fine] at hq; simp only [VQry.qry, item, seen, comp_rowAt hq he]
  | .absent w _, hq, e, he => by
    simp only [VQry.qry, Fine] at hq; simp only [VQry.qry, item, seen, comp_rowAt hq he, Option.isSome_map]
  | .ids l, hq, e, he => by simp only [VQry.qry, item, seen]
  | .flag k neg w, hq, e, he => by
    simp only [VQry.qry, Fine] at hq
    cases hrow : rowAt (tab (Win.ofView w)) e with
    | none => cases neg <;> simp [VQry.qry, item, seen, comp_rowAt hq.1 he, hrow]
    | some r =>
      have := flagged_eq hq.1 hq.2 he hrow
      cases neg <;> simp [VQry.qry, item, seen, comp_rowAt hq.1 he, hrow, this]
  | .or a b, hq, e, he => by
    simp only [VQry.qry, Fine] at hq
    simp only [VQry.qry, item, seen, item_seen a hq.2.2.2.2.1 e he, item_seen b hq.2.2.2.2.2 e he]
    cases seen a e <;> rfl
  | .tup [], hq, e, he => by simp only [VQry.qry, VQry.qrys, item, seen, itemsOf, seenAll]
  | .tup [q], hq, e, he => by
    simp only [VQry.qry, VQry.qrys, Fine, Fines] at hq
    simp only [VQry.qry, VQry.qrys, item, seen, item_seen q hq.1.1 e he]
  | .tup (q :: q' :: l), hq, e, he => by
    simp only [VQry.qry, Fine] at hq
    have := items_seen (q :: q' :: l) hq.1 e he
    simp only [VQry.qrys] at this
    simp only [VQry.qry, VQry.qrys, item, seen, this]
theorem items_seen : (l : List (VQry V)) → Fines tab (VQry.qrys l) → (e : EId) → e.gen < 65535 →
    itemsOf tab (VQry.qrys l) e = seenAll l e
  | [], _, e, _ => by simp only [VQry.qrys, itemsOf, seenAll]
  | q :: l, hq, e, he => by
    simp only [VQry.qrys, Fines] at hq
    simp only [VQry.qrys, itemsOf, seenAll, item_seen q hq.1 e he, items_seen l hq.2 e he]
end

end Verif.WorldIter
