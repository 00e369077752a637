import Verif.Props.Tracking

/-!
# C89: windows started by a timestamp

`get_tracking_timestamp()` gives a timestamp; `override_last_insertion(t)`, `override_last_modification(t)` and
`override_last_removal_or_deletion(t)` replace the beginning of the window of a view. The programs are those of C23:
sessions of any number of systems and other borrows, interleaved in any way.
-/
namespace Verif
open StoSpec TrkSpec Tracking
variable {T : Type}

/-- Session `p` began after the moment between `t1` and `t2`, was not the first one to begin then, and did not
begin after session `r`. -/
def TrkSpec.Since (t1 t2 : List (Act T)) (r p : Nat) : Prop :=
  p ∈ ((starts t2).drop 1).map (·.1) ∧ ¬ Before (t1 ++ t2) r p
open TrkSpec (Since)

theorem prog_join {w0 w1 : World T} {t1 : List (Act T)} (h1 : Prog w0 t1 w1) {t2 : List (Act T)} {w : World T}
    (h2 : Prog w1 t2 w) : Prog w0 (t1 ++ t2) w := by
  induction h2 with
  | nil => rw [List.append_nil]; exact h1
  | snoc _ hd ih => rw [← List.append_assoc]; exact ih.snoc hd

theorem since_window {a b c d : Bool} {t1 t2 : List (Act T)} {w : World T} {h : List (Event T)} {r p : Nat}
    (hi : Inv a b c d (t1 ++ t2) w h) (hr : r ∈ (starts (t1 ++ t2)).map (·.1)) (hp : p ∈ (starts (t1 ++ t2)).map (·.1)) :
    InWindow (pos (starts (t1 ++ t2)) p) ((starts t1).length + 1) (pos (starts (t1 ++ t2)) r) ↔ Since t1 t2 r p := by
  unfold TrkSpec.Since
  rw [before_iff hi hr hp]
  have hst : starts (t1 ++ t2) = starts t1 ++ starts t2 := starts_append t1 t2
  obtain ⟨k, y, hk⟩ := mem_starts_get hp
  have hpos := pos_eq hi.nodup hk
  have key : (starts t1).length + 1 < pos (starts (t1 ++ t2)) p ↔ p ∈ ((starts t2).drop 1).map (·.1) := by
    rw [hpos]
    have hnd := hi.nodup
    rw [hst] at hk hnd
    constructor
    · intro hlt
      rw [List.getElem?_append_right (by omega)] at hk
      refine List.mem_map.2 ⟨(p, y), ?_, rfl⟩
      rw [List.mem_iff_getElem?]
      refine ⟨k - (starts t1).length - 1, ?_⟩
      rw [List.getElem?_drop, ← hk]
      congr 1; omega
    · intro hm
      obtain ⟨z, hz, hzp⟩ := List.mem_map.1 hm
      obtain ⟨j, hj⟩ := List.mem_iff_getElem?.1 hz
      rw [List.getElem?_drop] at hj
      have hj' : (starts t1 ++ starts t2)[(starts t1).length + (1 + j)]? = some z := by
        rw [List.getElem?_append_right (by omega), ← hj]; congr 1; omega
      have := nodup_getElem hnd hk hj' hzp.symm
      omega
  rw [← key]
  unfold InWindow
  omega

theorem session_pos {a b c d : Bool} {tr : List (Act T)} {w : World T} {h : List (Event T)} (hi : Inv a b c d tr w h)
    {r : Nat} {s : Session} (hs : w.session r = some s) :
    s.current = pos (starts tr) r ∧ r ∈ (starts tr).map (·.1) := by
  obtain ⟨m, sy, hm, hcur, _⟩ := hi.session r s hs
  exact ⟨by rw [hcur, pos_eq hi.nodup hm], List.mem_map.2 ⟨_, List.mem_of_getElem? hm, rfl⟩⟩

/-- The answers of a view to `is_inserted` and `is_modified` exist when the storage tracks both. -/
theorem flags_exist {c d : Bool} {tr : List (Act T)} {w : World T} {h : List (Event T)}
    (hi : Inv true true c d tr w h) (hn : NoTakeover (events tr)) {e : EId} (he : Valid e) (v : View T) (hv : v.set = w.set) :
    (∃ i, v.isInserted e = .ok i) ∧ ∃ m, v.isModified e = .ok m := by
  obtain ⟨L, hL⟩ := SparseSet.run_abs hi.run
  have htrk := good_trk (run_good hi.run (hi.takeover hn))
  have hfl := flags_ok hL he.1 v hv
  exact ⟨⟨_, hfl.1 (htrk.1 rfl)⟩, _, hfl.2 (htrk.2 rfl)⟩

open Classical in
/-- C89. Let `t` be a timestamp taken in `w0`, and let any session `r` of `w` start the windows of its view at `t`. It is
told what sessions that began after `t` was taken did, *not counting the first of them*, and nothing else:
insertions, modifications, and the removals and deletions in order. Missing: that first session, see `C89_fails`. -/
theorem C89_since_partial {c d : Bool} {t1 t2 : List (Act T)} {w0 w : World T} (hp0 : Prog (World.init true true c d) t1 w0)
    (hp : Prog w0 t2 w) (hn : NoTakeover (events (t1 ++ t2))) {r : Nat} {s : Session} (hs : w.session r = some s) :
    (∀ e, Valid e → ∃ i, ((w.view s).overrideLastInsertion w0.clock.timestamp).isInserted e = .ok i ∧
      (i = true ↔ (∃ v, w.set.get e = .ok (some v)) ∧ ∃ p, bornBy (t1 ++ t2) e = some p ∧ Since t1 t2 r p)) ∧
    (∀ e, Valid e → ∃ m, ((w.view s).overrideLastModification w0.clock.timestamp).isModified e = .ok m ∧
      (m = true ↔ (∃ v, w.set.get e = .ok (some v)) ∧ ∃ p, writtenBy (t1 ++ t2) e = some p ∧ Since t1 t2 r p)) ∧
    (d = true → ((w.view s).overrideLastRemovalOrDeletion w0.clock.timestamp).removed =
      (removals (t1 ++ t2)).filterMap fun x => if Since t1 t2 r x.1 then some x.2 else none) ∧
    (c = true → ((w.view s).overrideLastRemovalOrDeletion w0.clock.timestamp).deleted =
      (deletions (t1 ++ t2)).filterMap fun x => if Since t1 t2 r x.1 then some x.2 else none) := by
  obtain ⟨h0, hi0⟩ := prog_inv hp0
  obtain ⟨h, hi⟩ := prog_inv (prog_join hp0 hp)
  obtain ⟨hcur, hrin⟩ := session_pos hi hs
  have ht : w0.clock.timestamp = (starts t1).length + 1 := hi0.counter
  obtain ⟨L, hL⟩ := SparseSet.run_abs hi.run
  have hwin : ∀ p ∈ (starts (t1 ++ t2)).map (·.1),
      (InWindow (pos (starts (t1 ++ t2)) p) w0.clock.timestamp s.current ↔ Since t1 t2 r p) := by
    intro p hp
    rw [ht, hcur]
    exact since_window hi hrin hp
  have hlook : ∀ e, Valid e → ∃ i m, (w.view ⟨some w0.clock.timestamp, s.current⟩).isInserted e = .ok i ∧
      (w.view ⟨some w0.clock.timestamp, s.current⟩).isModified e = .ok m := by
    intro e he
    obtain ⟨⟨i, h1⟩, m, h2⟩ := flags_exist hi hn he (w.view ⟨some w0.clock.timestamp, s.current⟩) rfl
    exact ⟨i, m, h1, h2⟩
  refine ⟨fun e he => ?_, fun e he => ?_, fun hd => ?_, fun hc => ?_⟩
  · obtain ⟨i, m, h1, h2⟩ := hlook e he
    refine ⟨i, h1, ?_⟩
    rw [(look_spec hi hn he h1 h2).1]
    exact and_congr_right fun _ => exists_congr fun p => and_congr_right fun hb => hwin p (hi.bornIn e p hb)
  · obtain ⟨i, m, h1, h2⟩ := hlook e he
    refine ⟨m, h2, ?_⟩
    rw [(look_spec hi hn he h1 h2).2]
    exact and_congr_right fun _ => exists_congr fun p => and_congr_right fun hb => hwin p (hi.writtenIn e p hb)
  · subst hd
    show w.set.removalData.filterMap _ = _
    rw [hL.removed, hi.removed rfl, List.filterMap_map]
    refine filterMap_congr' fun x hx => ?_
    have := hwin x.1 (hi.removedIn x hx)
    rw [← isWithin_iff] at this
    show (if isWithin _ w0.clock.timestamp s.current = true then _ else _) = _
    by_cases h : Since t1 t2 r x.1
    · rw [if_pos h, if_pos (this.2 h)]
    · rw [if_neg h, if_neg (fun h' => h (this.1 h'))]
  · subst hc
    show w.set.deletionData.filterMap _ = _
    rw [hL.deleted (hi.takeover hn), hi.deleted rfl, List.filterMap_map]
    refine filterMap_congr' fun x hx => ?_
    have := hwin x.1 (hi.deletedIn x hx)
    rw [← isWithin_iff] at this
    show (if isWithin _ w0.clock.timestamp s.current = true then _ else _) = _
    by_cases h : Since t1 t2 r x.1
    · rw [if_pos h, if_pos (this.2 h)]
    · rw [if_neg h, if_neg (fun h' => h (this.1 h'))]

/-- C89. Runs that start their windows at the same `t` are told the same, as long as none of the sessions that
changed the storage began after one of them: the interpolation of the documentation. `t` is any timestamp. -/
theorem C89_stable {tr : List (Act T)} {w : World T} (hp : Prog (World.init true true true true) tr w) (hn : NoTakeover (events tr))
    {r r' : Nat} {s s' : Session} (hs : w.session r = some s) (hs' : w.session r' = some s')
    (hq : ∀ p ev, .call p ev ∈ tr → ¬ Before tr r p ∧ ¬ Before tr r' p) (t : Nat) :
    (∀ e, Valid e → ((w.view s).overrideLastInsertion t).isInserted e = ((w.view s').overrideLastInsertion t).isInserted e ∧
      ((w.view s).overrideLastModification t).isModified e = ((w.view s').overrideLastModification t).isModified e) ∧
    ((w.view s).overrideLastRemovalOrDeletion t).removed = ((w.view s').overrideLastRemovalOrDeletion t).removed ∧
    ((w.view s).overrideLastRemovalOrDeletion t).deleted = ((w.view s').overrideLastRemovalOrDeletion t).deleted := by
  obtain ⟨h, hi⟩ := prog_inv hp
  obtain ⟨hcur, hrin⟩ := session_pos hi hs
  obtain ⟨hcur', hrin'⟩ := session_pos hi hs'
  obtain ⟨L, hL⟩ := SparseSet.run_abs hi.run
  have hwin : ∀ p ∈ (starts tr).map (·.1), (∃ ev, .call p ev ∈ tr) →
      (InWindow (pos (starts tr) p) t s.current ↔ InWindow (pos (starts tr) p) t s'.current) := by
    rintro p hpin ⟨ev, hev⟩
    obtain ⟨h1, h2⟩ := hq p ev hev
    rw [before_iff hi hrin hpin] at h1
    rw [before_iff hi hrin' hpin] at h2
    rw [hcur, hcur']
    unfold InWindow
    omega
  have hlook : ∀ e, Valid e → ∀ s : Session, ∃ i m, (w.view ⟨some t, s.current⟩).isInserted e = .ok i ∧
      (w.view ⟨some t, s.current⟩).isModified e = .ok m := by
    intro e he s
    obtain ⟨⟨i, h1⟩, m, h2⟩ := flags_exist hi hn he (w.view ⟨some t, s.current⟩) rfl
    exact ⟨i, m, h1, h2⟩
  have hcall : ∀ {p}, (∃ t1 ev t2, tr = t1 ++ .call p ev :: t2) → ∃ ev, .call p ev ∈ tr := by
    rintro p ⟨t1, ev, t2, rfl⟩
    exact ⟨ev, by simp⟩
  refine ⟨fun e he => ?_, ?_, ?_⟩
  · obtain ⟨i, m, h1, h2⟩ := hlook e he s
    obtain ⟨i', m', h1', h2'⟩ := hlook e he s'
    obtain ⟨h3, h4⟩ := look_spec hi hn he h1 h2
    obtain ⟨h3', h4'⟩ := look_spec hi hn he h1' h2'
    constructor
    · show (w.view ⟨some t, s.current⟩).isInserted e = (w.view ⟨some t, s'.current⟩).isInserted e
      rw [h1, h1']
      congr 1
      apply Bool.eq_iff_iff.2
      rw [h3, h3']
      exact and_congr_right fun _ => exists_congr fun p => and_congr_right fun hb =>
        hwin p (hi.bornIn e p hb) (hcall (born_call hb))
    · show (w.view ⟨some t, s.current⟩).isModified e = (w.view ⟨some t, s'.current⟩).isModified e
      rw [h2, h2']
      congr 1
      apply Bool.eq_iff_iff.2
      rw [h4, h4']
      exact and_congr_right fun _ => exists_congr fun p => and_congr_right fun hb =>
        hwin p (hi.writtenIn e p hb) (hcall (written_call hb))
  · show w.set.removalData.filterMap _ = w.set.removalData.filterMap _
    rw [hL.removed, hi.removed rfl, List.filterMap_map, List.filterMap_map]
    refine filterMap_congr' fun x hx => ?_
    have hc : ∃ ev, .call x.1 ev ∈ tr := by
      unfold removals at hx
      obtain ⟨y, hy, hyx⟩ := List.mem_flatMap.1 hx
      split at hyx
      · rw [List.mem_singleton] at hyx; subst hyx; exact ⟨_, hy⟩
      · obtain ⟨z, _, rfl⟩ := List.mem_map.1 hyx; exact ⟨_, hy⟩
      · cases hyx
    have := hwin x.1 (hi.removedIn x hx) hc
    rw [← isWithin_iff, ← isWithin_iff] at this
    show (if isWithin _ t s.current = true then _ else _) = (if isWithin _ t s'.current = true then _ else _)
    rw [Bool.eq_iff_iff.2 this]
  · show w.set.deletionData.filterMap _ = w.set.deletionData.filterMap _
    rw [hL.deleted (hi.takeover hn), hi.deleted rfl, List.filterMap_map, List.filterMap_map]
    refine filterMap_congr' fun x hx => ?_
    have hc : ∃ ev, .call x.1 ev ∈ tr := by
      unfold deletions at hx
      obtain ⟨y, hy, hyx⟩ := List.mem_flatMap.1 hx
      split at hyx
      · rw [List.mem_singleton] at hyx; subst hyx; exact ⟨_, hy⟩
      · obtain ⟨z, _, rfl⟩ := List.mem_map.1 hyx; exact ⟨_, hy⟩
      · obtain ⟨z, _, rfl⟩ := List.mem_map.1 hyx; exact ⟨_, hy⟩
      · cases hyx
    have := hwin x.1 (hi.deletedIn x hx) hc
    rw [← isWithin_iff, ← isWithin_iff] at this
    show (if isWithin _ t s.current = true then _ else _) = (if isWithin _ t s'.current = true then _ else _)
    rw [Bool.eq_iff_iff.2 this]

/-- C89 fails for the first session that begins after the timestamp was taken: what it does is not in the window. -/
theorem C89_fails : ∃ (w0 w : World Nat) (s : Session) (t2 : List (Act Nat)),
    Prog (World.init true true true true) [] w0 ∧ Prog w0 t2 w ∧ w.session 1 = some s ∧
    t2 = [.start 0 none, .call 0 (.inserted ⟨3, 0⟩ 10 1 .inserted), .start 1 none] ∧
    w.set.get ⟨3, 0⟩ = .ok (some 10) ∧
    ((w.view s).overrideLastInsertion w0.clock.timestamp).isInserted ⟨3, 0⟩ = .ok false := by
  have h0 := Prog.nil (w0 := (World.init true true true true : World Nat))
  have h2 := h0.snoc (.start (p := 0) (sys := none) (by decide))
  have h3 := h2.snoc (.call (p := 0) (s := ⟨none, 1⟩) rfl
    (Step.insert (e := ⟨3, 0⟩) (v := 10) (now := 1) (by decide) rfl) rfl (by intro t ht; cases ht; rfl))
  have h4 := h3.snoc (.start (p := 1) (sys := none) (by decide))
  exact ⟨_, _, ⟨none, 2⟩, _, h0, h4, rfl, rfl, rfl, rfl⟩

/-! ## Non-vacuity -/

/-- A timestamp is taken; sessions 0 and 1 begin, session 1 inserts; two runs of system 7 start their windows at the
timestamp, and both are told. With their own windows only the first would be. -/
example : ∃ (w : World Nat) (s s' : Session),
    Prog (World.init true true true true) [.start 0 none, .start 1 none, .call 1 (.inserted ⟨3, 0⟩ 10 2 .inserted), .start 2 (some 7), .start 3 (some 7)] w ∧
    w.session 2 = some s ∧ w.session 3 = some s' ∧
    ((w.view s).overrideLastInsertion 1).isInserted ⟨3, 0⟩ = .ok true ∧ ((w.view s').overrideLastInsertion 1).isInserted ⟨3, 0⟩ = .ok true ∧
    (w.view s).isInserted ⟨3, 0⟩ = .ok true ∧ (w.view s').isInserted ⟨3, 0⟩ = .ok false := by
  have h0 := Prog.nil (w0 := (World.init true true true true : World Nat))
  have h1 := h0.snoc (.start (p := 0) (sys := none) (by decide))
  have h2 := h1.snoc (.start (p := 1) (sys := none) (by decide))
  have h3 := h2.snoc (.call (p := 1) (s := ⟨none, 2⟩) rfl
    (Step.insert (e := ⟨3, 0⟩) (v := 10) (now := 2) (by decide) rfl) rfl (by intro t ht; cases ht; rfl))
  have h4 := h3.snoc (.start (p := 2) (sys := some 7) (by decide))
  have h5 := h4.snoc (.start (p := 3) (sys := some 7) (by decide))
  exact ⟨_, ⟨some 0, 3⟩, ⟨some 3, 4⟩, h5, rfl, rfl, rfl, rfl, rfl, rfl⟩

end Verif
