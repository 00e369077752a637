import Verif.Lemmas.Tracking

/-! # Lemmas: timestamps of sessions and the order in which they began -/
namespace Verif.TrkSpec
open StoSpec Tracking
variable {T : Type}

/-! ## Lists of starts -/

/-- 1 + the position of the last start of system `b`, 0 when there is none. -/
def lastIx (b : Nat) : List (Nat × Option Nat) → Nat
  | [] => 0
  | s :: ss => if lastIx b ss = 0 then (if s.2 = some b then 1 else 0) else lastIx b ss + 1

theorem lastIx_snoc (b : Nat) (ss : List (Nat × Option Nat)) (s : Nat × Option Nat) :
    lastIx b (ss ++ [s]) = if s.2 = some b then ss.length + 1 else lastIx b ss := by
  induction ss with
  | nil => simp [lastIx]
  | cons x ss ih =>
    show (if lastIx b (ss ++ [s]) = 0 then _ else _) = _
    have ih' : lastIx b (ss.append [s]) = if s.2 = some b then ss.length + 1 else lastIx b ss := ih
    by_cases h : s.2 = some b
    · rw [if_pos h] at ih ih' ⊢
      rw [ih, ih', if_neg (by omega)]; rfl
    · rw [if_neg h] at ih ih' ⊢
      rw [ih, ih']; rfl

theorem lastIx_le (b : Nat) : ∀ (ss : List (Nat × Option Nat)) (k : Nat),
    lastIx b ss ≤ k ↔ ∀ (j : Nat) (s : Nat × Option Nat), k ≤ j → ss[j]? = some s → s.2 ≠ some b := by
  intro ss
  induction ss with
  | nil => intro k; simp [lastIx]
  | cons x ss ih =>
    intro k
    show (if lastIx b ss = 0 then _ else _) ≤ k ↔ _
    cases k with
    | zero =>
      constructor
      · intro h j s _ hj
        by_cases h0 : lastIx b ss = 0
        · rw [if_pos h0] at h
          cases j with
          | zero =>
            simp only [List.getElem?_cons_zero, Option.some.injEq] at hj
            subst hj
            intro hb; rw [if_pos hb] at h; omega
          | succ j =>
            rw [List.getElem?_cons_succ] at hj
            exact (ih 0).1 (by omega) j s (Nat.zero_le _) hj
        · rw [if_neg h0] at h; omega
      · intro h
        have h0 : lastIx b ss = 0 := by
          have := (ih 0).2 (fun j s _ hj => h (j + 1) s (Nat.zero_le _) (by rw [List.getElem?_cons_succ]; exact hj))
          omega
        rw [if_pos h0, if_neg (h 0 x (Nat.le_refl _) rfl)]
        exact Nat.le_refl _
    | succ k =>
      have : (if lastIx b ss = 0 then (if x.2 = some b then 1 else 0) else lastIx b ss + 1) ≤ k + 1 ↔
          lastIx b ss ≤ k := by
        split
        · split <;> omega
        · omega
      rw [this, ih k]
      constructor
      · intro h j s hj hs
        cases j with
        | zero => omega
        | succ j => rw [List.getElem?_cons_succ] at hs; exact h j s (by omega) hs
      · intro h j s hj hs
        exact h (j + 1) s (by omega) (by rw [List.getElem?_cons_succ]; exact hs)

/-- 1 + the position of the start of session `p`. -/
def pos (ss : List (Nat × Option Nat)) (p : Nat) : Nat := (ss.takeWhile (fun s => s.1 != p)).length + 1

theorem nodup_getElem {ss : List (Nat × Option Nat)} (hn : (ss.map (·.1)).Nodup) {i j : Nat}
    {x y : Nat × Option Nat} (hi : ss[i]? = some x) (hj : ss[j]? = some y) (h : x.1 = y.1) : i = j := by
  have h1 : i < ss.length := SparseSet.getElem?_lt hi
  have h2 : j < ss.length := SparseSet.getElem?_lt hj
  rw [List.nodup_iff_pairwise_ne, List.pairwise_iff_getElem] at hn
  rw [List.getElem?_eq_getElem h1] at hi
  rw [List.getElem?_eq_getElem h2] at hj
  injection hi with hi
  injection hj with hj
  rcases Nat.lt_trichotomy i j with h3 | h3 | h3
  · exact absurd (by rw [List.getElem_map, List.getElem_map, hi, hj, h])
      (hn i j (by simpa using h1) (by simpa using h2) h3)
  · exact h3
  · exact absurd (by rw [List.getElem_map, List.getElem_map, hi, hj, h])
      (hn j i (by simpa using h2) (by simpa using h1) h3)

theorem takeWhile_length {ss : List (Nat × Option Nat)} (hn : (ss.map (·.1)).Nodup) {k : Nat} {p : Nat}
    {x : Option Nat} (hk : ss[k]? = some (p, x)) :
    (ss.takeWhile (fun s => s.1 != p)).length = k ∧ ss.dropWhile (fun s => s.1 != p) = ss.drop k := by
  induction ss generalizing k with
  | nil => simp at hk
  | cons s ss ih =>
    rw [List.map_cons, List.nodup_cons] at hn
    by_cases hs : s.1 = p
    · have : k = 0 := by
        cases k with
        | zero => rfl
        | succ k =>
          rw [List.getElem?_cons_succ] at hk
          exact absurd (List.mem_map.2 ⟨_, List.mem_of_getElem? hk, hs.symm⟩) hn.1
      subst this
      simp [List.takeWhile_cons, List.dropWhile_cons, hs]
    · cases k with
      | zero => simp only [List.getElem?_cons_zero, Option.some.injEq] at hk; subst hk; exact absurd rfl hs
      | succ k =>
        rw [List.getElem?_cons_succ] at hk
        obtain ⟨h1, h2⟩ := ih hn.2 hk
        have hb : (s.1 != p) = true := by simpa using hs
        rw [List.takeWhile_cons, List.dropWhile_cons, hb]
        simp only [if_true, List.length_cons, List.drop_succ_cons]
        exact ⟨by rw [h1], h2⟩

theorem pos_eq {ss : List (Nat × Option Nat)} (hn : (ss.map (·.1)).Nodup) {k : Nat} {p : Nat}
    {x : Option Nat} (hk : ss[k]? = some (p, x)) : pos ss p = k + 1 := by
  unfold pos; rw [(takeWhile_length hn hk).1]

theorem pos_append {ss : List (Nat × Option Nat)} {p : Nat} (hp : p ∈ ss.map (·.1))
    (s : List (Nat × Option Nat)) : pos (ss ++ s) p = pos ss p := by
  unfold pos
  induction ss with
  | nil => cases hp
  | cons x ss ih =>
    rw [List.cons_append, List.takeWhile_cons, List.takeWhile_cons]
    by_cases hx : x.1 = p
    · simp [hx]
    · have hb : (x.1 != p) = true := by simpa using hx
      rw [hb]
      simp only [if_true, List.length_cons]
      rw [List.map_cons, List.mem_cons] at hp
      rcases hp with rfl | hp
      · exact absurd rfl hx
      · have := ih hp; omega

/-- The window of a run of `b` and the session that has to be reported by it. -/
theorem window_iff {ss : List (Nat × Option Nat)} (hn : (ss.map (·.1)).Nodup) {b p r k m : Nat}
    {x : Option Nat} (hk : ss[k]? = some (p, x)) (hm : ss[m]? = some (r, some b)) :
    InWindow (k + 1) (lastIx b (ss.take m)) (m + 1) ↔
      (((ss.dropWhile (fun s => s.1 != p)).find? (fun s => s.2 == some b)).map (·.1)) = some r := by
  rw [(takeWhile_length hn hk).2, Option.map_eq_some_iff]
  have hlt := SparseSet.getElem?_lt hm
  have h1 : InWindow (k + 1) (lastIx b (ss.take m)) (m + 1) ↔ lastIx b (ss.take m) ≤ k ∧ k ≤ m := by
    unfold InWindow; omega
  rw [h1, lastIx_le]
  constructor
  · rintro ⟨h2, h3⟩
    refine ⟨(r, some b), ?_, rfl⟩
    rw [List.find?_eq_some_iff_getElem]
    refine ⟨by simp, m - k, by rw [List.length_drop]; omega, ?_, ?_⟩
    · have : (ss.drop k)[m - k]? = some (r, some b) := by
        rw [List.getElem?_drop, Nat.add_sub_cancel' h3]; exact hm
      rw [List.getElem?_eq_getElem (by rw [List.length_drop]; omega)] at this
      injection this
    · intro j hj
      have hj' : k + j < ss.length := by omega
      have hg : (ss.take m)[k + j]? = some ss[k + j] := by
        rw [List.getElem?_take, if_pos (by omega), List.getElem?_eq_getElem hj']
      have := h2 (k + j) _ (by omega) hg
      rw [List.getElem_drop]
      simpa using this
  · rintro ⟨y, hy, hyr⟩
    rw [List.find?_eq_some_iff_getElem] at hy
    obtain ⟨hyb, i, hi, hiy, hall⟩ := hy
    rw [List.length_drop] at hi
    have hki : ss[k + i]? = some y := by
      rw [List.getElem?_eq_getElem (by omega)]
      rw [List.getElem_drop] at hiy
      rw [hiy]
    have : k + i = m := nodup_getElem hn hki hm hyr
    refine ⟨?_, by omega⟩
    intro j s hj hs
    rw [List.getElem?_take] at hs
    split at hs
    · rename_i hjm
      have h4 := hall (j - k) (by omega)
      rw [List.getElem_drop] at h4
      rw [List.getElem?_eq_getElem (by omega)] at hs
      injection hs with hs
      have h5 : ss[k + (j - k)]'(by omega) = s := by
        rw [← hs]; congr 1; omega
      rw [h5] at h4
      simpa using h4
    · cases hs

/-! ## The invariant of programs -/

/-- What the world looks like after a program. -/
structure Inv (a b c d : Bool) (tr : List (Act T)) (w : World T) (h : List (Event T)) : Prop where
  counter : w.clock.counter = (starts tr).length + 1
  nodup : ((starts tr).map (·.1)).Nodup
  used : ∀ p, p ∈ w.used ↔ p ∈ (starts tr).map (·.1)
  lastRun : ∀ s, w.clock.lastRun s = lastIx s (starts tr)
  session : ∀ p s, w.session p = some s → ∃ i sys, (starts tr)[i]? = some (p, sys) ∧ s.current = i + 1 ∧
    s.lastRun = sys.map (fun q => lastIx q ((starts tr).take i))
  run : Run (SparseSet.new a b c d) h w.set
  takeover : NoTakeover (events tr) → NoTakeover h
  born : ∀ e, bornAt h e = (bornBy tr e).map (pos (starts tr))
  bornIn : ∀ e p, bornBy tr e = some p → p ∈ (starts tr).map (·.1)
  written : ∀ e, writtenAt h e = (writtenBy tr e).map (pos (starts tr))
  writtenIn : ∀ e p, writtenBy tr e = some p → p ∈ (starts tr).map (·.1)
  removed : d = true → (after (Sto.init a b c d) h).removed =
    (removals tr).map fun x => (x.2, pos (starts tr) x.1)
  removedIn : ∀ x ∈ removals tr, x.1 ∈ (starts tr).map (·.1)
  deleted : c = true → (after (Sto.init a b c d) h).deleted =
    (deletions tr).map fun x => (x.2.1, pos (starts tr) x.1, x.2.2)
  deletedIn : ∀ x ∈ deletions tr, x.1 ∈ (starts tr).map (·.1)
  trkDel : (after (Sto.init a b c d) h).trkDel = c
  trkRem : (after (Sto.init a b c d) h).trkRem = d

theorem starts_snoc (tr : List (Act T)) (x : Act T) :
    starts (tr ++ [x]) = starts tr ++ (match x with | .start p sys => [(p, sys)] | _ => []) := by
  unfold starts
  rw [List.filterMap_append]
  cases x <;> rfl

theorem bornBy_snoc (tr : List (Act T)) (x : Act T) (e : EId) :
    bornBy (tr ++ [x]) e = (match x with
      | .call p ev => if (births e ev).isSome then some p else none | _ => none).or (bornBy tr e) := by
  unfold bornBy
  rw [List.filterMap_append]
  cases x with
  | call p ev =>
    simp only [List.filterMap_cons, List.filterMap_nil]
    by_cases hb : (births e ev).isSome = true <;> simp [hb]
  | _ => simp

theorem writtenBy_snoc (tr : List (Act T)) (x : Act T) (e : EId) :
    writtenBy (tr ++ [x]) e = (match x with
      | .call p ev => if (births e ev).isSome then none else if (writes e ev).isSome then some p
          else writtenBy tr e
      | _ => writtenBy tr e) := by
  unfold writtenBy
  rw [List.foldl_append]
  cases x <;> rfl

theorem removals_snoc (tr : List (Act T)) (x : Act T) :
    removals (tr ++ [x]) = removals tr ++ (match x with
    | .call p (.removed e _ (some _)) => [(p, e)]
    | .call p (.drained _ rows) => rows.map fun x => (p, x.1)
    | _ => []) := by
  unfold removals
  rw [List.flatMap_append, List.flatMap_singleton]
  congr 1

theorem deletions_snoc (tr : List (Act T)) (x : Act T) :
    deletions (tr ++ [x]) = deletions tr ++ (match x with
    | .call p (.deleted e _ (some v)) => [(p, e, v)]
    | .call p (.retained _ calls) => (rejected calls).map fun c => (p, c.id, c.left)
    | .call p (.cleared _ rows) => rows.map fun x => (p, x.1, x.2)
    | _ => []) := by
  unfold deletions
  rw [List.flatMap_append, List.flatMap_singleton]
  congr 1

theorem events_snoc (tr : List (Act T)) (x : Act T) :
    events (tr ++ [x]) = events tr ++ (match x with | .call _ ev => [ev] | _ => []) := by
  unfold events
  rw [List.filterMap_append]
  cases x <;> rfl

/-- Births and writes carry the timestamp of the call. -/
theorem births_stamp {e : EId} {ev : Event T} {t : Nat} (h : births e ev = some t) : stamp ev = some t := by
  cases ev with
  | inserted e' v now r =>
    cases r <;> simp [births] at h
    simp [stamp, h.2]
  | bulk start st vs =>
    simp only [births] at h
    split at h
    · exact h
    · cases h
  | _ => cases h

theorem writes_stamp {e : EId} {ev : Event T} {t : Nat} (h : writes e ev = some t) : stamp ev = some t := by
  cases ev with
  | inserted e' v now r =>
    cases r <;> simp [writes] at h
    simp [stamp, h.2]
  | wrote ws now =>
    simp only [writes] at h
    split at h
    · exact h
    · cases h
  | retained now calls =>
    simp only [writes] at h
    split at h
    · exact h
    · cases h
  | _ => cases h

theorem inv_init (a b c d : Bool) : Inv a b c d ([] : List (Act T)) (World.init a b c d) [] where
  counter := rfl
  nodup := List.nodup_nil
  used := fun p => by simp [World.init, starts]
  lastRun := fun _ => rfl
  session := fun p s h => by cases h
  run := .nil
  takeover := fun _ e v now h => by cases h
  born := fun _ => rfl
  bornIn := fun _ _ h => by cases h
  written := fun _ => rfl
  writtenIn := fun _ _ h => by cases h
  removed := fun _ => rfl
  removedIn := fun _ h => by cases h
  deleted := fun _ => rfl
  deletedIn := fun _ h => by cases h
  trkDel := rfl
  trkRem := rfl

theorem map_pos_append {ss : List (Nat × Option Nat)} {o : Option Nat}
    (ho : ∀ p, o = some p → p ∈ ss.map (·.1)) (s : List (Nat × Option Nat)) :
    o.map (pos (ss ++ s)) = o.map (pos ss) := by
  cases o with
  | none => rfl
  | some p => simp only [Option.map_some]; rw [pos_append (ho p rfl)]

/-- Acts that only change the control data of the storage, or nothing. -/
theorem inv_quiet {a b c d : Bool} {tr : List (Act T)} {w w' : World T} {h h' : List (Event T)} {x : Act T}
    (hi : Inv a b c d tr w h)
    (hx : match x with | .start .. => False | .call .. => False | _ => True)
    (hclock : w'.clock = w.clock) (hused : w'.used = w.used)
    (hsess : ∀ p s, w'.session p = some s → w.session p = some s)
    (hrun : Run (SparseSet.new a b c d) h' w'.set)
    (htake : NoTakeover h → NoTakeover h')
    (hb : ∀ e, bornAt h' e = bornAt h e) (hw : ∀ e, writtenAt h' e = writtenAt h e)
    (hrem : (after (Sto.init a b c d) h').removed = (after (Sto.init a b c d) h).removed)
    (hdel : (after (Sto.init a b c d) h').deleted = (after (Sto.init a b c d) h).deleted)
    (htd : (after (Sto.init a b c d) h').trkDel = (after (Sto.init a b c d) h).trkDel)
    (htr : (after (Sto.init a b c d) h').trkRem = (after (Sto.init a b c d) h).trkRem) :
    Inv a b c d (tr ++ [x]) w' h' := by
  have hs : starts (tr ++ [x]) = starts tr := by
    rw [starts_snoc]; cases x <;> first | exact hx.elim | simp
  have he : events (tr ++ [x]) = events tr := by
    rw [events_snoc]; cases x <;> first | exact hx.elim | simp
  have hbb : ∀ e, bornBy (tr ++ [x]) e = bornBy tr e := by
    intro e; rw [bornBy_snoc]; cases x <;> first | exact hx.elim | rfl
  have hww : ∀ e, writtenBy (tr ++ [x]) e = writtenBy tr e := by
    intro e; rw [writtenBy_snoc]; cases x <;> first | exact hx.elim | rfl
  have hrr : removals (tr ++ [x]) = removals tr := by
    rw [removals_snoc]; cases x <;> first | exact hx.elim | simp
  have hdd : deletions (tr ++ [x]) = deletions tr := by
    rw [deletions_snoc]; cases x <;> first | exact hx.elim | simp
  exact
    { counter := by rw [hclock, hs]; exact hi.counter
      nodup := by rw [hs]; exact hi.nodup
      used := by rw [hs, hused]; exact hi.used
      lastRun := by rw [hs, hclock]; exact hi.lastRun
      session := by rw [hs]; exact fun p s h => hi.session p s (hsess p s h)
      run := hrun
      takeover := fun hn => htake (hi.takeover (by rw [he] at hn; exact hn))
      born := fun e => by rw [hb, hbb, hs]; exact hi.born e
      bornIn := fun e => by rw [hbb, hs]; exact hi.bornIn e
      written := fun e => by rw [hw, hww, hs]; exact hi.written e
      writtenIn := fun e => by rw [hww, hs]; exact hi.writtenIn e
      removed := by rw [hrem, hrr, hs]; exact hi.removed
      removedIn := by rw [hrr, hs]; exact hi.removedIn
      deleted := by rw [hdel, hdd, hs]; exact hi.deleted
      deletedIn := by rw [hdd, hs]; exact hi.deletedIn
      trkDel := by rw [htd]; exact hi.trkDel
      trkRem := by rw [htr]; exact hi.trkRem }

theorem noTakeover_append {h : List (Event T)} {ev : Event T} (hn : NoTakeover h)
    (hev : ∀ e v now, ev ≠ .inserted e v now .otherComponentOverride) : NoTakeover (h ++ [ev]) := by
  intro e v now hm
  rw [List.mem_append, List.mem_singleton] at hm
  rcases hm with hm | hm
  · exact hn e v now hm
  · exact hev e v now hm.symm

theorem inv_start {a b c d : Bool} {tr : List (Act T)} {w : World T} {h : List (Event T)}
    (hi : Inv a b c d tr w h) {p : Nat} (sys : Option Nat) (hp : p ∉ w.used) :
    Inv a b c d (tr ++ [.start p sys])
      { w with
        clock := (w.clock.start sys).2
        session := upd w.session p (some (w.clock.start sys).1)
        used := p :: w.used } h := by
  have hs : starts (tr ++ [.start p sys]) = starts tr ++ [(p, sys)] := starts_snoc _ _
  have hp' : p ∉ (starts tr).map (·.1) := fun h => hp ((hi.used p).2 h)
  have hbb : ∀ e, bornBy (tr ++ [.start p sys]) e = bornBy tr e := by
    intro e; rw [bornBy_snoc]; rfl
  have hww : ∀ e, writtenBy (tr ++ [.start p sys]) e = writtenBy tr e := by
    intro e; rw [writtenBy_snoc]
  have hrr : removals (tr ++ [.start p sys]) = removals tr := by
    rw [removals_snoc]; simp
  have hdd : deletions (tr ++ [.start p sys]) = deletions tr := by
    rw [deletions_snoc]; simp
  refine
    { counter := ?_, nodup := ?_, used := ?_, lastRun := ?_, session := ?_, run := hi.run
      takeover := ?_, born := ?_, bornIn := ?_, written := ?_, writtenIn := ?_, removed := ?_
      removedIn := ?_, deleted := ?_, deletedIn := ?_, trkDel := hi.trkDel, trkRem := hi.trkRem }
  · rw [hs, List.length_append]
    have : (w.clock.start sys).2.counter = w.clock.counter + 1 := by cases sys <;> rfl
    show (w.clock.start sys).2.counter = _
    rw [this, hi.counter]; rfl
  · rw [hs, List.map_append, List.nodup_append]
    refine ⟨hi.nodup, by simp, ?_⟩
    intro x hx y hy
    simp only [List.map_cons, List.map_nil, List.mem_singleton] at hy
    subst hy
    exact fun h => hp' (h ▸ hx)
  · intro q
    rw [hs, List.map_append, List.mem_append, List.mem_cons, hi.used]
    simp only [List.map_cons, List.map_nil, List.mem_singleton]
    exact Or.comm
  · intro s
    rw [hs, lastIx_snoc]
    simp only
    cases sys with
    | none => exact hi.lastRun s
    | some q =>
      show (if s = q then w.clock.counter else w.clock.lastRun s) = _
      rw [hi.counter, hi.lastRun s]
      simp only [Option.some.injEq]
      by_cases hsq : s = q
      · rw [if_pos hsq, if_pos hsq.symm]
      · rw [if_neg hsq, if_neg (fun h => hsq h.symm)]
  · intro q s hq
    rw [hs]
    change upd w.session p (some (w.clock.start sys).1) q = some s at hq
    unfold upd at hq
    by_cases hqp : q = p
    · rw [if_pos hqp] at hq
      injection hq with hq
      subst hq
      refine ⟨(starts tr).length, sys, ?_, ?_, ?_⟩
      · rw [List.getElem?_append_right (Nat.le_refl _), Nat.sub_self, hqp]; rfl
      · rw [← hi.counter]; cases sys <;> rfl
      · rw [List.take_left]
        cases sys with
        | none => rfl
        | some q' =>
          show some (w.clock.lastRun q') = _
          rw [hi.lastRun]; rfl
    · rw [if_neg hqp] at hq
      obtain ⟨i, sy, h1, h2, h3⟩ := hi.session q s hq
      have hlt := SparseSet.getElem?_lt h1
      refine ⟨i, sy, ?_, h2, ?_⟩
      · rw [List.getElem?_append_left hlt]; exact h1
      · rw [List.take_append_of_le_length (by omega)]; exact h3
  · intro hn
    exact hi.takeover (by rw [events_snoc] at hn; simpa using hn)
  · intro e
    rw [hbb, hs, map_pos_append (hi.bornIn e)]; exact hi.born e
  · intro e q hq
    rw [hbb] at hq
    rw [hs, List.map_append]
    exact List.mem_append_left _ (hi.bornIn e q hq)
  · intro e
    rw [hww, hs, map_pos_append (hi.writtenIn e)]; exact hi.written e
  · intro e q hq
    rw [hww] at hq
    rw [hs, List.map_append]
    exact List.mem_append_left _ (hi.writtenIn e q hq)
  · intro hd
    rw [hi.removed hd, hrr, hs]
    exact List.map_congr_left (fun x hx => by rw [pos_append (hi.removedIn x hx)])
  · intro x hx
    rw [hrr] at hx
    rw [hs, List.map_append]
    exact List.mem_append_left _ (hi.removedIn x hx)
  · intro hc
    rw [hi.deleted hc, hdd, hs]
    exact List.map_congr_left (fun x hx => by rw [pos_append (hi.deletedIn x hx)])
  · intro x hx
    rw [hdd] at hx
    rw [hs, List.map_append]
    exact List.mem_append_left _ (hi.deletedIn x hx)

theorem inv_call {a b c d : Bool} {tr : List (Act T)} {w : World T} {h : List (Event T)}
    (hi : Inv a b c d tr w h) {p : Nat} {ev : Event T} {s : Session} {set' : SparseSet T}
    (hs : w.session p = some s) (hst : Step w.set ev set') (hctl : isControl ev = false)
    (hstamp : ∀ t, stamp ev = some t → t = s.current) :
    Inv a b c d (tr ++ [.call p ev]) { w with set := set' } (h ++ [ev]) := by
  obtain ⟨i, sys, hip, hcur, hlast⟩ := hi.session p s hs
  have hpos : pos (starts tr) p = s.current := by rw [pos_eq hi.nodup hip, hcur]
  have hpin : p ∈ (starts tr).map (·.1) := List.mem_map.2 ⟨_, List.mem_of_getElem? hip, rfl⟩
  have hss : starts (tr ++ [.call p ev]) = starts tr := by rw [starts_snoc]; simp
  refine
    { counter := ?_, nodup := ?_, used := ?_, lastRun := ?_, session := ?_, run := hi.run.snoc hst
      takeover := ?_, born := ?_, bornIn := ?_, written := ?_, writtenIn := ?_, removed := ?_
      removedIn := ?_, deleted := ?_, deletedIn := ?_, trkDel := ?_, trkRem := ?_ }
  · rw [hss]; exact hi.counter
  · rw [hss]; exact hi.nodup
  · rw [hss]; exact hi.used
  · rw [hss]; exact hi.lastRun
  · rw [hss]; exact hi.session
  · intro hn
    rw [events_snoc] at hn
    obtain ⟨h1, h2⟩ := noTakeover_snoc hn
    exact noTakeover_append (hi.takeover h1) h2
  · intro e
    rw [bornAt_snoc, bornBy_snoc, hss]
    cases hb : births e ev with
    | none => simp only [hb]; exact hi.born e
    | some t =>
      simp only [hb, Option.isSome_some, if_true, Option.some_or, Option.map_some]
      rw [hpos, hstamp t (births_stamp hb)]
  · intro e q hq
    rw [bornBy_snoc] at hq
    rw [hss]
    cases hb : births e ev with
    | none => simp only [hb] at hq; exact hi.bornIn e q hq
    | some t =>
      simp only [hb, Option.isSome_some, if_true, Option.some_or] at hq
      injection hq with hq
      rw [← hq]; exact hpin
  · intro e
    rw [writtenAt_snoc, writtenBy_snoc, hss]
    simp only
    cases hb : births e ev with
    | some t => rfl
    | none =>
      simp only [Option.isSome_none, Bool.false_eq_true, if_false]
      cases hw : writes e ev with
      | none => simp only [Option.isSome_none, Bool.false_eq_true, if_false]; exact hi.written e
      | some t =>
        simp only [Option.isSome_some, if_true, Option.map_some]
        rw [hpos, hstamp t (writes_stamp hw)]; rfl
  · intro e q hq
    rw [writtenBy_snoc] at hq
    rw [hss]
    simp only at hq
    split at hq
    · cases hq
    · split at hq
      · injection hq with hq; rw [← hq]; exact hpin
      · exact hi.writtenIn e q hq
  · intro hd
    rw [after_snoc, removals_snoc, hss, List.map_append, ← hi.removed hd]
    have htr : (after (Sto.init a b c d) h).trkRem = true := by rw [hi.trkRem, hd]
    have hst' : ∀ t, stamp ev = some t → t = pos (starts tr) p := fun t ht => by rw [hpos]; exact hstamp t ht
    cases ev with
    | removed e now r =>
      have := hst' now rfl
      cases r with
      | none => simp [step]
      | some v => simp [step, htr, this]
    | drained now rows =>
      have := hst' now rfl
      simp [step, htr, this, Function.comp_def]
    | clearBoth => cases hctl
    | clearRemoved => cases hctl
    | clearRemovedOlder t => cases hctl
    | clearOlder t => cases hctl
    | _ => simp [step]
  · intro x hx
    rw [removals_snoc, List.mem_append] at hx
    rw [hss]
    rcases hx with hx | hx
    · exact hi.removedIn x hx
    · have : x.1 = p := by
        cases ev with
        | removed e now r =>
          cases r with
          | none => cases hx
          | some v => simp only [List.mem_singleton] at hx; rw [hx]
        | drained now rows =>
          simp only [List.mem_map] at hx
          obtain ⟨y, _, rfl⟩ := hx
          rfl
        | _ => cases hx
      rw [this]; exact hpin
  · intro hc
    rw [after_snoc, deletions_snoc, hss, List.map_append, ← hi.deleted hc]
    have htr : (after (Sto.init a b c d) h).trkDel = true := by rw [hi.trkDel, hc]
    have hst' : ∀ t, stamp ev = some t → t = pos (starts tr) p := fun t ht => by rw [hpos]; exact hstamp t ht
    cases ev with
    | deleted e now r =>
      have := hst' now rfl
      cases r with
      | none => simp [step]
      | some v => simp [step, htr, this]
    | retained now calls =>
      have := hst' now rfl
      simp [step, htr, this, Function.comp_def]
    | cleared now rows =>
      have := hst' now rfl
      simp [step, htr, this, Function.comp_def]
    | clearBoth => cases hctl
    | clearDeleted => cases hctl
    | clearDeletedOlder t => cases hctl
    | clearOlder t => cases hctl
    | _ => simp [step]
  · intro x hx
    rw [deletions_snoc, List.mem_append] at hx
    rw [hss]
    rcases hx with hx | hx
    · exact hi.deletedIn x hx
    · have : x.1 = p := by
        cases ev with
        | deleted e now r =>
          cases r with
          | none => cases hx
          | some v => simp only [List.mem_singleton] at hx; rw [hx]
        | retained now calls =>
          simp only [List.mem_map] at hx
          obtain ⟨y, _, rfl⟩ := hx
          rfl
        | cleared now rows =>
          simp only [List.mem_map] at hx
          obtain ⟨y, _, rfl⟩ := hx
          rfl
        | _ => cases hx
      rw [this]; exact hpin
  · rw [after_snoc]; cases ev <;> first | exact hi.trkDel | cases hctl
  · rw [after_snoc]; cases ev <;> first | exact hi.trkRem | cases hctl

theorem inv_does {a b c d : Bool} {tr : List (Act T)} {w w' : World T} {h : List (Event T)} {x : Act T}
    (hi : Inv a b c d tr w h) (hd : Does w x w') : ∃ h', Inv a b c d (tr ++ [x]) w' h' := by
  have hupd : ∀ (q : Nat) (p : Nat) (s : Session), upd w.session q none p = some s → w.session p = some s := by
    intro q p s hp
    unfold upd at hp
    split at hp
    · cases hp
    · exact hp
  cases hd with
  | start hp => exact ⟨h, inv_start hi _ hp⟩
  | call h1 h2 h3 h4 => exact ⟨_, inv_call hi h1 h2 h3 h4⟩
  | look h1 h2 h3 h4 =>
    exact ⟨h, inv_quiet hi trivial rfl rfl (fun _ _ h => h) hi.run id (fun _ => rfl) (fun _ => rfl) rfl rfl rfl rfl⟩
  | list h1 =>
    exact ⟨h, inv_quiet hi trivial rfl rfl (fun _ _ h => h) hi.run id (fun _ => rfl) (fun _ => rfl) rfl rfl rfl rfl⟩
  | @clearIns q s h1 =>
    refine ⟨h ++ [.clearInserted s.current], inv_quiet hi trivial rfl rfl (hupd q) (hi.run.snoc .clearInserted)
      (fun hn => noTakeover_append hn (by intros; intro h; cases h)) ?_ ?_ ?_ ?_ ?_ ?_⟩
    · intro e; rw [bornAt_snoc]; rfl
    · intro e; rw [writtenAt_snoc]; rfl
    all_goals rw [after_snoc]; rfl
  | @clearMod q s h1 =>
    refine ⟨h ++ [.clearModified s.current], inv_quiet hi trivial rfl rfl (hupd q) (hi.run.snoc .clearModified)
      (fun hn => noTakeover_append hn (by intros; intro h; cases h)) ?_ ?_ ?_ ?_ ?_ ?_⟩
    · intro e; rw [bornAt_snoc]; rfl
    · intro e; rw [writtenAt_snoc]; rfl
    all_goals rw [after_snoc]; rfl
  | worldClearIns =>
    refine ⟨h ++ [.clearInserted w.clock.timestamp], inv_quiet hi trivial rfl rfl (fun _ _ h => h)
      (hi.run.snoc .clearInserted)
      (fun hn => noTakeover_append hn (by intros; intro h; cases h)) ?_ ?_ ?_ ?_ ?_ ?_⟩
    · intro e; rw [bornAt_snoc]; rfl
    · intro e; rw [writtenAt_snoc]; rfl
    all_goals rw [after_snoc]; rfl
  | worldClearMod =>
    refine ⟨h ++ [.clearModified w.clock.timestamp], inv_quiet hi trivial rfl rfl (fun _ _ h => h)
      (hi.run.snoc .clearModified)
      (fun hn => noTakeover_append hn (by intros; intro h; cases h)) ?_ ?_ ?_ ?_ ?_ ?_⟩
    · intro e; rw [bornAt_snoc]; rfl
    · intro e; rw [writtenAt_snoc]; rfl
    all_goals rw [after_snoc]; rfl

theorem prog_inv {a b c d : Bool} {tr : List (Act T)} {w : World T}
    (hp : Prog (World.init a b c d) tr w) : ∃ h, Inv a b c d tr w h := by
  induction hp with
  | nil => exact ⟨[], inv_init a b c d⟩
  | snoc _ hd ih =>
    obtain ⟨h, hi⟩ := ih
    exact inv_does hi hd

end Verif.TrkSpec
