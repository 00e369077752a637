import Verif.Spec.Tracking
import Verif.Lemmas.StorageSpec

/-! # Lemmas: timestamps of rows and the history of calls -/
namespace Verif.TrkSpec
open StoSpec Tracking
open SparseSet (Abs Cell cellAt cellAt_none cellAt_some cellAt_mem build)
variable {T : Type}

/-- What a call that was really made tells about the state before it. -/
def Cons (A : Sto T) : Event T → Prop
  | .inserted e _ _ .inserted => A.rows e.idx = none
  | .inserted e _ _ (.componentOverride _) => ∃ row, A.rows e.idx = some row ∧ row.gen = e.gen
  | .inserted e _ _ .otherComponentOverride => ∃ row, A.rows e.idx = some row ∧ row.gen < e.gen
  | .inserted e _ _ .notInserted => ∃ row, A.rows e.idx = some row ∧ e.gen < row.gen
  | .wrote ws _ => ∀ w ∈ ws, ∃ row, A.rows w.1.idx = some row ∧ row.gen = w.1.gen
  | .retained _ calls =>
    (∀ c ∈ calls, ∃ row, A.rows c.id.idx = some row ∧ row.gen = c.id.gen) ∧
      (calls.map (·.id.idx)).Nodup
  | .bulk start _ _ => ∀ j, start ≤ j → A.rows j = none
  | _ => True

theorem row_of_cell {P : Prop} {s : SparseSet T} {A : Sto T} {L : List (Cell T)} (h : Abs P s A L)
    {i : Nat} {c : Cell T} (hi : L[i]? = some c) : A.rows c.id.idx = some c.toRow := by
  rw [h.rows, cellAt_mem h.ok hi]; rfl

theorem retained_cons {P : Prop} {s : SparseSet T} {A : Sto T} {L : List (Cell T)} (h : Abs P s A L)
    (hp : P) {calls : List (Call T)}
    (ho : ∃ (order : List (Cell T)), order.Perm L ∧
      calls.map (fun c => (c.id, c.given)) = order.map (fun c => (c.id, c.val))) (now : Nat) :
    Cons A (.retained now calls) := by
  obtain ⟨order, hperm, hmap⟩ := ho
  have hids : calls.map (·.id) = order.map (·.id) := by
    have := congrArg (List.map Prod.fst) hmap
    simpa [List.map_map, Function.comp_def] using this
  refine ⟨?_, ?_⟩
  · intro c hc
    have : c.id ∈ order.map (·.id) := by rw [← hids]; exact List.mem_map.2 ⟨c, hc, rfl⟩
    obtain ⟨x, hx, hxe⟩ := List.mem_map.1 this
    have hxL := hperm.mem_iff.1 hx
    obtain ⟨i, hi⟩ := List.mem_iff_getElem?.1 hxL
    refine ⟨x.toRow, ?_, ?_⟩
    · rw [← hxe]; exact row_of_cell h hi
    · rw [← hxe]; exact h.clean hp x hxL
  · have h1 : calls.map (·.id.idx) = (order.map (·.id.idx)) := by
      have := congrArg (List.map EId.idx) hids
      simpa [List.map_map, Function.comp_def] using this
    rw [h1]
    refine (hperm.map _).nodup_iff.2 ?_
    rw [List.nodup_iff_pairwise_ne, List.pairwise_iff_getElem]
    intro i j hi hj hij he
    rw [List.getElem_map, List.getElem_map] at he
    rw [List.length_map] at hi hj
    have := (h.ok.inj (List.getElem?_eq_getElem hi) (List.getElem?_eq_getElem hj) he).1
    omega

theorem step_cons {P : Prop} {s s' : SparseSet T} {A : Sto T} {L : List (Cell T)} {ev : Event T}
    (h : Abs P s A L) (hs : Step s ev s') (hp : P) : Cons A ev := by
  cases hs with
  | @insert e v now r _ he hi =>
    obtain ⟨r', hook, sp', L', h1, h2, h3⟩ := SparseSet.insert_ok (s := s) h.ok he v now
    rw [← h.shape, hi] at h1
    injection h1 with h1
    injection h1 with hr' _
    subst hr'
    cases h3 with
    | new hn => show A.rows _ = none; rw [h.rows, cellAt_none.2 hn]; rfl
    | @override i c hj hce hcg => exact ⟨c.toRow, by rw [← hce]; exact row_of_cell h hj, hcg⟩
    | @newer i c hj hce hcg => exact ⟨c.toRow, by rw [← hce]; exact row_of_cell h hj, hcg⟩
    | @older c hc hce hcg =>
      refine ⟨c.toRow, ?_, hcg⟩
      rw [h.rows, (cellAt_some h.ok).2 ⟨hc, hce⟩]; rfl
  | @write e now v _ he hm =>
    rw [h.shape] at hm
    rcases SparseSet.modify_ok (s := s) h.ok he.1 now (fun _ => v) with ⟨_, h1⟩ | ⟨i, c, hi, hce, hcg, h1, _⟩
    · rw [h1] at hm; injection hm with hm; injection hm with hm; cases hm
    · intro w hw
      rw [List.mem_singleton] at hw
      subst hw
      exact ⟨c.toRow, by show A.rows e.idx = _; rw [← hce]; exact row_of_cell h hi, hcg⟩
  | @apply x y now v _ g hx hy ha =>
    rw [h.shape] at ha
    obtain ⟨i, j, c, d, hi, hj, hij, hcx, hcg, hdy, hdg, hr, hs'⟩ := SparseSet.apply_inv h.ok hx.1 hy.1 ha
    intro w hw
    rw [List.mem_singleton] at hw
    subst hw
    exact ⟨c.toRow, by show A.rows x.idx = _; rw [← hcx]; exact row_of_cell h hi, hcg⟩
  | @applyMut x y now v w _ g hx hy ha =>
    rw [h.shape] at ha
    obtain ⟨i, j, c, d, hi, hj, hij, hcx, hcg, hdy, hdg, hr, hs'⟩ := SparseSet.applyMut_inv h.ok hx.1 hy.1 ha
    intro u hu
    rw [List.mem_cons, List.mem_singleton] at hu
    rcases hu with rfl | rfl
    · exact ⟨c.toRow, by show A.rows x.idx = _; rw [← hcx]; exact row_of_cell h hi, hcg⟩
    · exact ⟨d.toRow, by show A.rows y.idx = _; rw [← hdy]; exact row_of_cell h hj, hdg⟩
  | @retain now _ calls σ st st' f hr =>
    rw [SparseSet.retain_eq_retainMut] at hr
    refine retained_cons h hp (SparseSet.abs_retainMut (Q := False) h (st := st) (st' := st')
      (f := fun st e v => (none, (f st e v).1, (f st e v).2)) hr False.elim).1 now
  | retainMut hr => exact retained_cons h hp (SparseSet.abs_retainMut (Q := False) h hr False.elim).1 _
  | @bulk start stamp vs _ hf hm hb =>
    intro j hj
    rw [h.rows, cellAt_none.2]
    · rfl
    · intro c hc he
      have : c.id.idx < start := by
        refine hf c.id ?_
        rw [h.shape]; exact List.mem_map.2 ⟨c, hc, rfl⟩
      omega
  | _ => trivial

/-! ## The row of an entity -/

/-- The row of exactly this entity. -/
def rowOf (A : Sto T) (e : EId) : Option (Row T) := (A.rows e.idx).filter (fun r => decide (r.gen = e.gen))

theorem rowOf_eq {A : Sto T} {e : EId} {r : Row T} :
    rowOf A e = some r ↔ A.rows e.idx = some r ∧ r.gen = e.gen := by
  unfold rowOf
  rw [Option.filter_eq_some_iff]
  simp

theorem lookup_iff {A : Sto T} {e : EId} {v : T} :
    lookup A.rows e = some v ↔ ∃ r, rowOf A e = some r ∧ r.val = v := by
  unfold lookup
  simp only [rowOf_eq]
  cases A.rows e.idx with
  | none => simp
  | some r =>
    simp only [Option.bind_some, Option.some.injEq]
    constructor
    · intro h
      split at h
      · rename_i hg; injection h with h; exact ⟨r, ⟨rfl, hg⟩, h⟩
      · cases h
    · rintro ⟨_, ⟨rfl, hg⟩, rfl⟩
      rw [if_pos hg]

theorem writeRows_at (trk : Bool) (now : Nat) (j : Nat) : ∀ (ws : List (EId × T)) (rows : Nat → Option (Row T))
    (r' : Row T), writeRows trk now rows ws j = some r' →
    ∃ r, rows j = some r ∧ r'.gen = r.gen ∧ r'.ins = r.ins ∧
      r'.mod = if ws.any (fun w => w.1.idx == j) then tracked trk now r.mod else r.mod := by
  intro ws
  induction ws with
  | nil => intro rows r' h; exact ⟨r', h, rfl, rfl, rfl⟩
  | cons w ws ih =>
    obtain ⟨e, v⟩ := w
    intro rows r' h
    obtain ⟨r, h1, h2, h3, h4⟩ := ih _ _ h
    unfold setRow at h1
    by_cases hj : j = e.idx
    · rw [if_pos hj] at h1
      cases hr : rows e.idx with
      | none => rw [hr] at h1; cases h1
      | some r0 =>
        rw [hr] at h1
        simp only [Option.map_some, Option.some.injEq] at h1
        subst h1
        refine ⟨r0, by rw [hj]; exact hr, h2, h3, ?_⟩
        rw [h4]
        have : (((e, v) :: ws).any fun w => w.1.idx == j) = true := by simp [hj]
        rw [this, if_pos rfl]
        unfold writeRow tracked
        simp only
        cases trk <;> simp
    · rw [if_neg hj] at h1
      refine ⟨r, h1, h2, h3, ?_⟩
      rw [h4, List.any_cons]
      have : ((e, v).1.idx == j) = false := by simp; omega
      rw [this, Bool.false_or]

theorem eid_ext {a b : EId} (h1 : a.idx = b.idx) (h2 : a.gen = b.gen) : a = b := by
  cases a; cases b; simp_all

/-- One call: either it gave `e` its component, or it kept it, possibly with a write. -/
theorem row_step {A : Sto T} {ev : Event T} (hc : Cons A ev)
    (hno : ∀ e v now, ev ≠ .inserted e v now .otherComponentOverride) (e : EId) (row' : Row T)
    (hr : rowOf (step A ev) e = some row') :
    (∃ t, births e ev = some t ∧ (A.trkIns = true → row'.ins = t) ∧ row'.mod = 0) ∨
    (births e ev = none ∧ ∃ row, rowOf A e = some row ∧ (A.trkIns = true → row'.ins = row.ins) ∧
      (A.trkMod = true → row'.mod = (writes e ev).getD row.mod)) := by
  rw [rowOf_eq] at hr
  obtain ⟨hr, hg⟩ := hr
  have keep : births e ev = none → writes e ev = none → A.rows e.idx = some row' →
      (∃ t, births e ev = some t ∧ (A.trkIns = true → row'.ins = t) ∧ row'.mod = 0) ∨
      (births e ev = none ∧ ∃ row, rowOf A e = some row ∧ (A.trkIns = true → row'.ins = row.ins) ∧
        (A.trkMod = true → row'.mod = (writes e ev).getD row.mod)) := by
    intro h1 h2 h3
    exact .inr ⟨h1, row', rowOf_eq.2 ⟨h3, hg⟩, fun _ => rfl, fun _ => by rw [h2]; rfl⟩
  cases ev with
  | inserted e' v now r =>
    change setRow A.rows e'.idx (insertRow A e' v now) e.idx = some row' at hr
    unfold setRow at hr
    by_cases hidx : e.idx = e'.idx
    · rw [if_pos hidx] at hr
      unfold insertRow at hr
      cases r with
      | inserted =>
        change A.rows e'.idx = none at hc
        rw [hc] at hr
        simp only [Option.some.injEq] at hr
        subst hr
        have : e' = e := eid_ext hidx.symm hg
        subst this
        refine .inl ⟨now, by simp [births], fun h => ?_, rfl⟩
        simp [tracked, h]
      | componentOverride o =>
        obtain ⟨row, hrow, hgen⟩ := hc
        rw [hrow] at hr
        simp only at hr
        rw [if_pos hgen] at hr
        simp only [Option.some.injEq] at hr
        subst hr
        have : e' = e := eid_ext hidx.symm (by rw [← hgen]; exact hg)
        subst this
        refine .inr ⟨rfl, row, rowOf_eq.2 ⟨hrow, hgen⟩, fun _ => rfl, fun h => ?_⟩
        simp [writes, tracked, h]
      | otherComponentOverride => exact absurd rfl (hno e' v now)
      | notInserted =>
        obtain ⟨row, hrow, hgen⟩ := hc
        rw [hrow] at hr
        simp only at hr
        rw [if_neg (by omega), if_neg (by omega)] at hr
        refine keep rfl rfl ?_
        rw [hidx, hrow, hr]
    · rw [if_neg hidx] at hr
      have hne : e' ≠ e := fun h => hidx (by rw [h])
      refine keep ?_ ?_ hr
      · cases r <;> simp [births, hne]
      · cases r <;> simp [writes, hne]
  | removed e' now r =>
    change setRow A.rows e'.idx (removeRow A e') e.idx = some row' at hr
    unfold setRow at hr
    refine keep rfl rfl ?_
    split at hr
    · rename_i hidx
      unfold removeRow at hr
      rw [hidx]
      cases hrow : A.rows e'.idx with
      | none => rw [hrow] at hr; cases hr
      | some row =>
        rw [hrow] at hr
        simp only [Option.bind_some] at hr
        split at hr
        · cases hr
        · exact hr
    · exact hr
  | deleted e' now r =>
    change setRow A.rows e'.idx (removeRow A e') e.idx = some row' at hr
    unfold setRow at hr
    refine keep rfl rfl ?_
    split at hr
    · rename_i hidx
      unfold removeRow at hr
      rw [hidx]
      cases hrow : A.rows e'.idx with
      | none => rw [hrow] at hr; cases hr
      | some row =>
        rw [hrow] at hr
        simp only [Option.bind_some] at hr
        split at hr
        · cases hr
        · exact hr
    · exact hr
  | wrote ws now =>
    change writeRows A.trkMod now A.rows ws e.idx = some row' at hr
    obtain ⟨row, h1, h2, h3, h4⟩ := writeRows_at _ _ _ _ _ _ hr
    refine .inr ⟨rfl, row, rowOf_eq.2 ⟨h1, by rw [← h2]; exact hg⟩, fun _ => h3, fun htm => ?_⟩
    rw [h4]
    have : (ws.any fun w => w.1.idx == e.idx) = decide (e ∈ ws.map (·.1)) := by
      rw [Bool.eq_iff_iff]
      simp only [List.any_eq_true, beq_iff_eq, decide_eq_true_eq, List.mem_map]
      constructor
      · rintro ⟨w, hw, hwe⟩
        obtain ⟨row2, hrow2, hg2⟩ := hc w hw
        rw [hwe, h1] at hrow2
        injection hrow2 with hrow2
        subst hrow2
        exact ⟨w, hw, eid_ext hwe (by rw [← hg2, ← h2]; exact hg)⟩
      · rintro ⟨w, hw, hwe⟩
        exact ⟨w, hw, by rw [hwe]⟩
    rw [this]
    unfold writes tracked
    simp only [htm, if_true]
    by_cases hm : e ∈ ws.map (·.1)
    · rw [if_pos (by simpa using hm), if_pos hm]; rfl
    · rw [if_neg (by simpa using hm), if_neg hm]; rfl
  | sorted => exact keep rfl rfl hr
  | retained now calls =>
    obtain ⟨hc1, hnd⟩ := hc
    change (match calls.find? (fun c => c.id.idx == e.idx) with
        | some c => callRow A.trkMod now c (A.rows e.idx)
        | none => A.rows e.idx) = some row' at hr
    cases hf : calls.find? (fun c => c.id.idx == e.idx) with
    | none =>
      rw [hf] at hr
      simp only at hr
      refine keep rfl ?_ hr
      rw [List.find?_eq_none] at hf
      show (if _ then _ else _) = _
      rw [if_neg]
      simp only [List.any_eq_true, Bool.and_eq_true, decide_eq_true_eq, not_exists, not_and]
      intro c hcm hce
      exact absurd (by rw [hce]; simp) (hf c hcm)
    | some c =>
      rw [hf] at hr
      simp only at hr
      have hcm := List.mem_of_find?_eq_some hf
      have hci : c.id.idx = e.idx := by simpa using List.find?_some hf
      obtain ⟨row, hrow, hgen⟩ := hc1 c hcm
      rw [hci] at hrow
      rw [hrow] at hr
      unfold callRow at hr
      have uniq : ∀ x ∈ calls, x.id = e → x = c := by
        intro x hx hxe
        exact SparseSet.nodup_map_inj hnd hx hcm (by rw [hxe, hci])
      split at hr
      · cases hw : c.wrote with
        | none =>
          rw [hw] at hr
          simp only at hr
          refine keep rfl ?_ (by rw [hrow, hr])
          show (if _ then _ else _) = _
          rw [if_neg]
          simp only [List.any_eq_true, Bool.and_eq_true, decide_eq_true_eq, not_exists, not_and]
          intro x hx hxe
          rw [uniq x hx hxe, hw]; simp
        | some v =>
          rw [hw] at hr
          simp only [Option.map_some, Option.some.injEq] at hr
          subst hr
          refine .inr ⟨rfl, row, rowOf_eq.2 ⟨hrow, hg⟩, fun _ => rfl, fun htm => ?_⟩
          have hce : c.id = e := eid_ext hci (by rw [← hgen]; exact hg)
          show _ = (if _ then _ else _ : Option Nat).getD _
          rw [if_pos]
          · simp [StoSpec.writeRow, tracked, htm]
          · simp only [List.any_eq_true, Bool.and_eq_true, decide_eq_true_eq]
            exact ⟨c, hcm, hce, by rw [hw]; rfl⟩
      · cases hr
  | cleared now rows => cases hr
  | drained now rows => cases hr
  | bulk start stamp vs =>
    change (if start ≤ e.idx then
          match vs[e.idx - start]? with
          | some v => some ⟨0, v, stamp, 0⟩
          | none => A.rows e.idx
        else A.rows e.idx) = some row' at hr
    split at hr
    · rename_i hle
      cases hv : vs[e.idx - start]? with
      | none => rw [hv] at hr; simp only at hr; rw [hc _ hle] at hr; cases hr
      | some v =>
        rw [hv] at hr
        simp only [Option.some.injEq] at hr
        subst hr
        have := SparseSet.getElem?_lt hv
        refine .inl ⟨stamp, ?_, fun _ => rfl, rfl⟩
        show (if _ then _ else _) = _
        rw [if_pos ⟨hg.symm, hle, by omega⟩]
    · rename_i hle
      refine keep ?_ rfl hr
      show (if _ then _ else _) = _
      rw [if_neg (fun h => hle h.2.1)]
  | trackInsertion =>
    change (if A.trkIns then A.rows else fun j => (A.rows j).map fun r => { r with ins := 0 }) e.idx = some row' at hr
    cases ht : A.trkIns with
    | true =>
      rw [ht, if_pos rfl] at hr
      rw [ht] at keep
      exact keep rfl rfl hr
    | false =>
      rw [ht] at hr
      simp only [Bool.false_eq_true, if_false] at hr
      cases hrow : A.rows e.idx with
      | none => rw [hrow] at hr; cases hr
      | some row =>
        rw [hrow] at hr
        simp only [Option.map_some, Option.some.injEq] at hr
        subst hr
        exact .inr ⟨rfl, row, rowOf_eq.2 ⟨hrow, hg⟩, (fun h => by cases h), fun _ => rfl⟩
  | trackModification =>
    change (if A.trkMod then A.rows else fun j => (A.rows j).map fun r => { r with mod := 0 }) e.idx = some row' at hr
    cases ht : A.trkMod with
    | true =>
      rw [ht, if_pos rfl] at hr
      rw [ht] at keep
      exact keep rfl rfl hr
    | false =>
      rw [ht] at hr
      simp only [Bool.false_eq_true, if_false] at hr
      cases hrow : A.rows e.idx with
      | none => rw [hrow] at hr; cases hr
      | some row =>
        rw [hrow] at hr
        simp only [Option.map_some, Option.some.injEq] at hr
        subst hr
        exact .inr ⟨rfl, row, rowOf_eq.2 ⟨hrow, hg⟩, fun _ => rfl, (fun h => by cases h)⟩
  | _ => exact keep rfl rfl hr

theorem trk_mono (A : Sto T) (ev : Event T) :
    (A.trkIns = true → (step A ev).trkIns = true) ∧ (A.trkMod = true → (step A ev).trkMod = true) := by
  cases ev <;> exact ⟨(fun h => by first | exact h | rfl), (fun h => by first | exact h | rfl)⟩

theorem after_snoc (A : Sto T) (h : List (Event T)) (ev : Event T) :
    after A (h ++ [ev]) = step (after A h) ev := by
  unfold after; rw [List.foldl_append]; rfl

theorem bornAt_snoc (h : List (Event T)) (ev : Event T) (e : EId) :
    bornAt (h ++ [ev]) e = (births e ev).or (bornAt h e) := by
  unfold bornAt
  rw [List.filterMap_append]
  cases hb : births e ev with
  | none => simp [hb]
  | some t => simp [hb]

theorem writtenAt_snoc (h : List (Event T)) (ev : Event T) (e : EId) :
    writtenAt (h ++ [ev]) e = if (births e ev).isSome then none else (writes e ev).or (writtenAt h e) := by
  unfold writtenAt; rw [List.foldl_append]; rfl

/-- Consistent, takeover-free histories from `A`. -/
inductive Good (A0 : Sto T) : List (Event T) → Prop where
  | nil : Good A0 []
  | snoc {h ev} : Good A0 h → Cons (after A0 h) ev →
      (∀ e v now, ev ≠ .inserted e v now .otherComponentOverride) → Good A0 (h ++ [ev])

theorem good_trk {A0 : Sto T} {h : List (Event T)} (hg : Good A0 h) :
    (A0.trkIns = true → (after A0 h).trkIns = true) ∧ (A0.trkMod = true → (after A0 h).trkMod = true) := by
  induction hg with
  | nil => exact ⟨id, id⟩
  | snoc _ _ _ ih =>
    rw [after_snoc]
    exact ⟨fun h => (trk_mono _ _).1 (ih.1 h), fun h => (trk_mono _ _).2 (ih.2 h)⟩

theorem good_rows {A0 : Sto T} {h : List (Event T)} (hg : Good A0 h) (e : EId) :
    (A0.trkIns = true → (∀ r, rowOf A0 e = some r → r.ins = 0) →
      ∀ r, rowOf (after A0 h) e = some r → r.ins = (bornAt h e).getD 0) ∧
    (A0.trkMod = true → (∀ r, rowOf A0 e = some r → r.mod = 0) →
      ∀ r, rowOf (after A0 h) e = some r → r.mod = (writtenAt h e).getD 0) ∧
    (rowOf A0 e = none → ∀ r, rowOf (after A0 h) e = some r → (bornAt h e).isSome) := by
  induction hg with
  | nil => exact ⟨fun _ h r hr => h r hr, fun _ h r hr => h r hr, fun h r hr => by rw [show after A0 [] = A0 from rfl, h] at hr; cases hr⟩
  | @snoc h ev hgood hc hno ih =>
    have ht := good_trk hgood
    rw [after_snoc]
    refine ⟨?_, ?_, ?_⟩
    · intro htr h0 r hr
      rw [bornAt_snoc]
      rcases row_step hc hno e r hr with ⟨t, h1, h2, _⟩ | ⟨h1, row, h2, h3, _⟩
      · rw [h1, h2 (ht.1 htr)]; rfl
      · rw [h1, h3 (ht.1 htr)]; exact ih.1 htr h0 row h2
    · intro htr h0 r hr
      rw [writtenAt_snoc]
      rcases row_step hc hno e r hr with ⟨t, h1, _, h2⟩ | ⟨h1, row, h2, _, h3⟩
      · rw [h1, h2]; rfl
      · rw [h1, h3 (ht.2 htr), ih.2.1 htr h0 row h2]
        cases writes e ev <;> rfl
    · intro h0 r hr
      rw [bornAt_snoc]
      rcases row_step hc hno e r hr with ⟨t, h1, _, _⟩ | ⟨h1, row, h2, _, _⟩
      · rw [h1]; rfl
      · rw [h1]; exact ih.2.2 h0 row h2

theorem noTakeover_snoc {h : List (Event T)} {ev : Event T} (hn : NoTakeover (h ++ [ev])) :
    NoTakeover h ∧ ∀ e v now, ev ≠ .inserted e v now .otherComponentOverride :=
  ⟨fun e v now hm => hn e v now (List.mem_append_left _ hm),
   fun e v now he => hn e v now (by rw [he]; simp)⟩

theorem run_good {a b c d : Bool} {h : List (Event T)} {s : SparseSet T}
    (hr : Run (SparseSet.new a b c d) h s) (hn : NoTakeover h) : Good (Sto.init a b c d) h := by
  induction hr with
  | nil => exact .nil
  | @snoc h s ev s' hr hs ih =>
    obtain ⟨h1, h2⟩ := noTakeover_snoc hn
    obtain ⟨L, hL⟩ := SparseSet.run_abs hr
    exact .snoc (ih h1) (step_cons hL hs h1) h2

/-! ## Flags -/

theorem isWithin_iff (t last cur : Nat) : isWithin t last cur = true ↔ InWindow t last cur := by
  unfold isWithin InWindow; simp

/-- The flags of a view in terms of the rows of the specification. -/
theorem flags_ok {P : Prop} {s : SparseSet T} {A : Sto T} {L : List (Cell T)} (h : Abs P s A L)
    {e : EId} (he : e.gen < 65535) (v : View T) (hv : v.set = s) :
    (A.trkIns = true → v.isInserted e = .ok (match rowOf A e with
      | some r => isWithin r.ins v.lastInsertion v.current | none => false)) ∧
    (A.trkMod = true → v.isModified e = .ok (match rowOf A e with
      | some r => isWithin r.mod v.lastModification v.current | none => false)) := by
  subst hv
  have hsh := h.shape
  rcases SparseSet.indexOf_ok (s := v.set) h.ok e he with ⟨h1, h2⟩ | ⟨i, c, hi, hce, hcg, h2⟩
  · rw [← h.shape] at h2
    have hn : rowOf A e = none := by
      cases hr : rowOf A e with
      | none => rfl
      | some r =>
        rw [rowOf_eq, h.rows] at hr
        cases hc : cellAt L e.idx with
        | none => rw [hc] at hr; cases hr.1
        | some c =>
          rw [hc] at hr
          rw [cellAt_some h.ok] at hc
          simp only [Option.map_some, Option.some.injEq] at hr
          exact absurd ⟨hc.2, by rw [← hr.2, ← hr.1]; rfl⟩ (h1 c hc.1)
    unfold View.isInserted View.isModified
    simp only [h2, bind, Except.bind, hn]
    exact ⟨fun _ => trivial, fun _ => trivial⟩
  · rw [← h.shape] at h2
    have hrow : rowOf A e = some c.toRow := by
      rw [rowOf_eq, ← hce]; exact ⟨row_of_cell h hi, hcg⟩
    unfold View.isInserted View.isModified
    simp only [h2, bind, Except.bind, hrow]
    refine ⟨fun ht => ?_, fun ht => ?_⟩
    · have : v.set.insertionData[i]? = some c.ins := by
        rw [hsh]; unfold build; simp only; rw [h.trkIns, ht, if_pos rfl, List.getElem?_map, hi]; rfl
      unfold View.flag; rw [this]; rfl
    · have : v.set.modificationData[i]? = some c.mod := by
        rw [hsh]; unfold build; simp only; rw [h.trkMod, ht, if_pos rfl, List.getElem?_map, hi]; rfl
      unfold View.flag; rw [this]; rfl

end Verif.TrkSpec
