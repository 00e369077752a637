import Verif.Lemmas.Track

/-! # Lemmas: when entities got their components, takeovers included -/
namespace Verif.TrkSpec
open StoSpec Tracking
open SparseSet (Abs Cell cellAt cellAt_none cellAt_some cellAt_mem build)
variable {T : Type}

/-- What a call that was really made tells about the state before it, whatever the history. -/
def ConsI (A : Sto T) : Event T → Prop
  | .inserted e _ _ .inserted => A.rows e.idx = none
  | .inserted e _ _ (.componentOverride _) => ∃ row, A.rows e.idx = some row ∧ row.gen = e.gen
  | .inserted e _ _ .otherComponentOverride => ∃ row, A.rows e.idx = some row ∧ row.gen < e.gen
  | .inserted e _ _ .notInserted => ∃ row, A.rows e.idx = some row ∧ e.gen < row.gen
  | .bulk start _ _ => ∀ j, start ≤ j → A.rows j = none
  | _ => True

theorem step_consI {P : Prop} {s s' : SparseSet T} {A : Sto T} {L : List (Cell T)} {ev : Event T}
    (h : Abs P s A L) (hs : Step s ev s') : ConsI A ev := by
  cases hs with
  | @insert e v now r _ he hi =>
    obtain ⟨r', hook, sp', L', h1, h2, h3⟩ := SparseSet.insert_ok (s := s) h.ok he v now
    rw [← h.shape, hi] at h1
    injection h1 with h1
    injection h1 with hr' _
    subst hr'
    cases h3 with
    | new hn => show A.rows _ = none; rw [h.rows, cellAt_none.2 hn]; rfl
    | @override i c hj hce hcg => exact ⟨c.toRow, by rw [← hce]; exact row_of_cell h hj, hcg⟩
    | @newer i c hj hce hcg => exact ⟨c.toRow, by rw [← hce]; exact row_of_cell h hj, hcg⟩
    | @older c hc hce hcg =>
      refine ⟨c.toRow, ?_, hcg⟩
      rw [h.rows, (cellAt_some h.ok).2 ⟨hc, hce⟩]; rfl
  | @bulk start stamp vs _ hf hm hb =>
    intro j hj
    rw [h.rows, cellAt_none.2]
    · rfl
    · intro c hc he
      have : c.id.idx < start := by
        refine hf c.id ?_
        rw [h.shape]; exact List.mem_map.2 ⟨c, hc, rfl⟩
      omega
  | _ => trivial

/-- One call: either it gave `e` its component, or it kept it with the time of its insertion. -/
theorem ins_step {A : Sto T} {ev : Event T} (hc : ConsI A ev) (e : EId) (row' : Row T)
    (hr : rowOf (step A ev) e = some row') :
    (∃ t, gives e ev = some t ∧ (A.trkIns = true → row'.ins = t)) ∨
    (gives e ev = none ∧ ∃ row, rowOf A e = some row ∧ (A.trkIns = true → row'.ins = row.ins)) := by
  rw [rowOf_eq] at hr
  obtain ⟨hr, hg⟩ := hr
  have keep : gives e ev = none → A.rows e.idx = some row' →
      (∃ t, gives e ev = some t ∧ (A.trkIns = true → row'.ins = t)) ∨
      (gives e ev = none ∧ ∃ row, rowOf A e = some row ∧ (A.trkIns = true → row'.ins = row.ins)) := by
    intro h1 h3
    exact .inr ⟨h1, row', rowOf_eq.2 ⟨h3, hg⟩, fun _ => rfl⟩
  cases ev with
  | inserted e' v now r =>
    change setRow A.rows e'.idx (insertRow A e' v now) e.idx = some row' at hr
    unfold setRow at hr
    by_cases hidx : e.idx = e'.idx
    · rw [if_pos hidx] at hr
      unfold insertRow at hr
      cases r with
      | inserted =>
        change A.rows e'.idx = none at hc
        rw [hc] at hr
        simp only [Option.some.injEq] at hr
        subst hr
        have : e' = e := eid_ext hidx.symm hg
        subst this
        refine .inl ⟨now, by simp [gives], fun h => ?_⟩
        simp [tracked, h]
      | componentOverride o =>
        obtain ⟨row, hrow, hgen⟩ := hc
        rw [hrow] at hr
        simp only at hr
        rw [if_pos hgen] at hr
        simp only [Option.some.injEq] at hr
        subst hr
        have : e' = e := eid_ext hidx.symm (by rw [← hgen]; exact hg)
        subst this
        exact .inr ⟨rfl, row, rowOf_eq.2 ⟨hrow, hgen⟩, fun _ => rfl⟩
      | otherComponentOverride =>
        obtain ⟨row, hrow, hgen⟩ := hc
        rw [hrow] at hr
        simp only at hr
        rw [if_neg (by omega), if_pos hgen] at hr
        simp only [Option.some.injEq] at hr
        subst hr
        have : e' = e := eid_ext hidx.symm hg
        subst this
        refine .inl ⟨now, by simp [gives], fun h => ?_⟩
        simp [tracked, h]
      | notInserted =>
        obtain ⟨row, hrow, hgen⟩ := hc
        rw [hrow] at hr
        simp only at hr
        rw [if_neg (by omega), if_neg (by omega)] at hr
        refine keep rfl ?_
        rw [hidx, hrow, hr]
    · rw [if_neg hidx] at hr
      have hne : e' ≠ e := fun h => hidx (by rw [h])
      refine keep ?_ hr
      cases r <;> simp [gives, hne]
  | removed e' now r =>
    change setRow A.rows e'.idx (removeRow A e') e.idx = some row' at hr
    unfold setRow at hr
    refine keep rfl ?_
    split at hr
    · rename_i hidx
      unfold removeRow at hr
      rw [hidx]
      cases hrow : A.rows e'.idx with
      | none => rw [hrow] at hr; cases hr
      | some row =>
        rw [hrow] at hr
        simp only [Option.bind_some] at hr
        split at hr
        · cases hr
        · exact hr
    · exact hr
  | deleted e' now r =>
    change setRow A.rows e'.idx (removeRow A e') e.idx = some row' at hr
    unfold setRow at hr
    refine keep rfl ?_
    split at hr
    · rename_i hidx
      unfold removeRow at hr
      rw [hidx]
      cases hrow : A.rows e'.idx with
      | none => rw [hrow] at hr; cases hr
      | some row =>
        rw [hrow] at hr
        simp only [Option.bind_some] at hr
        split at hr
        · cases hr
        · exact hr
    · exact hr
  | wrote ws now =>
    change writeRows A.trkMod now A.rows ws e.idx = some row' at hr
    obtain ⟨row, h1, h2, h3, h4⟩ := writeRows_at _ _ _ _ _ _ hr
    exact .inr ⟨rfl, row, rowOf_eq.2 ⟨h1, by rw [← h2]; exact hg⟩, fun _ => h3⟩
  | sorted => exact keep rfl hr
  | retained now calls =>
    change (match calls.find? (fun c => c.id.idx == e.idx) with
        | some c => callRow A.trkMod now c (A.rows e.idx)
        | none => A.rows e.idx) = some row' at hr
    cases hf : calls.find? (fun c => c.id.idx == e.idx) with
    | none => rw [hf] at hr; exact keep rfl hr
    | some c =>
      rw [hf] at hr
      simp only at hr
      unfold callRow at hr
      split at hr
      · cases hw : c.wrote with
        | none => rw [hw] at hr; exact keep rfl hr
        | some v =>
          rw [hw] at hr
          simp only [Option.map_eq_some_iff] at hr
          obtain ⟨row, hrow, rfl⟩ := hr
          exact .inr ⟨rfl, row, rowOf_eq.2 ⟨hrow, hg⟩, fun _ => rfl⟩
      · cases hr
  | cleared now rows => cases hr
  | drained now rows => cases hr
  | bulk start stamp vs =>
    change (if start ≤ e.idx then
          match vs[e.idx - start]? with
          | some v => some ⟨0, v, stamp, 0⟩
          | none => A.rows e.idx
        else A.rows e.idx) = some row' at hr
    split at hr
    · rename_i hle
      cases hv : vs[e.idx - start]? with
      | none => rw [hv] at hr; simp only at hr; rw [hc _ hle] at hr; cases hr
      | some v =>
        rw [hv] at hr
        simp only [Option.some.injEq] at hr
        subst hr
        have := SparseSet.getElem?_lt hv
        refine .inl ⟨stamp, ?_, fun _ => rfl⟩
        show (if _ then _ else _) = _
        rw [if_pos ⟨hg.symm, hle, by omega⟩]
    · rename_i hle
      refine keep ?_ hr
      show (if _ then _ else _) = _
      rw [if_neg (fun h => hle h.2.1)]
  | trackInsertion =>
    change (if A.trkIns then A.rows else fun j => (A.rows j).map fun r => { r with ins := 0 }) e.idx = some row' at hr
    cases ht : A.trkIns with
    | true =>
      rw [ht, if_pos rfl] at hr
      rw [ht] at keep
      exact keep rfl hr
    | false =>
      rw [ht] at hr
      simp only [Bool.false_eq_true, if_false] at hr
      cases hrow : A.rows e.idx with
      | none => rw [hrow] at hr; cases hr
      | some row =>
        rw [hrow] at hr
        simp only [Option.map_some, Option.some.injEq] at hr
        subst hr
        exact .inr ⟨rfl, row, rowOf_eq.2 ⟨hrow, hg⟩, (fun h => by cases h)⟩
  | trackModification =>
    change (if A.trkMod then A.rows else fun j => (A.rows j).map fun r => { r with mod := 0 }) e.idx = some row' at hr
    split at hr
    · exact keep rfl hr
    · dsimp only at hr
      cases hrow : A.rows e.idx with
      | none => rw [hrow] at hr; cases hr
      | some row =>
        rw [hrow] at hr
        simp only [Option.map_some, Option.some.injEq] at hr
        subst hr
        exact .inr ⟨rfl, row, rowOf_eq.2 ⟨hrow, hg⟩, fun _ => rfl⟩
  | _ => exact keep rfl hr

theorem givenAt_snoc (h : List (Event T)) (ev : Event T) (e : EId) :
    givenAt (h ++ [ev]) e = (gives e ev).or (givenAt h e) := by
  unfold givenAt
  rw [List.filterMap_append]
  cases hb : gives e ev with
  | none => simp [hb]
  | some t => simp [hb]

theorem run_given {b c d : Bool} {h : List (Event T)} {s : SparseSet T} (hr : Run (SparseSet.new true b c d) h s) (e : EId) :
    (after (Sto.init true b c d) h).trkIns = true ∧
    ∀ r, rowOf (after (Sto.init true b c d) h) e = some r → givenAt h e = some r.ins := by
  induction hr with
  | nil => exact ⟨rfl, fun r hr => by cases hr⟩
  | @snoc h s ev s' hr hs ih =>
    obtain ⟨L, hL⟩ := SparseSet.run_abs hr
    rw [after_snoc]
    refine ⟨(trk_mono _ _).1 ih.1, fun r hro => ?_⟩
    rw [givenAt_snoc]
    rcases ins_step (step_consI hL hs) e r hro with ⟨t, h1, h2⟩ | ⟨h1, row, h2, h3⟩
    · rw [h1, h2 ih.1]; rfl
    · rw [h1, h3 ih.1]; exact ih.2 row h2

end Verif.TrkSpec
