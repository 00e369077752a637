import Verif.Spec.TrackOn
import Verif.Props.WorldReports
import Verif.Lemmas.SerdeWorld
import Verif.Lemmas.GetComponent

/-!
# C102: turning tracking on at run time
-/
namespace Verif
open EntSpec (Event)
open StoSpec (Sto)
open WSpec
open World
variable {V : Type} {fl : Flags}

namespace WSpec

theorem TurnedOn.trans {x y : Wanted} {s s1 s2 : SparseSet V} (h1 : TurnedOn x s s1) (h2 : TurnedOn y s1 s2) :
    TurnedOn ⟨x.insertion || y.insertion, x.modification || y.modification, x.deletion || y.deletion, x.removal || y.removal⟩ s s2 where
  tracks := by
    obtain ⟨a1, a2, a3, a4⟩ := h1.tracks
    obtain ⟨b1, b2, b3, b4⟩ := h2.tracks
    rw [b1, b2, b3, b4, a1, a2, a3, a4]
    simp only [Bool.or_assoc, and_self]
  shows := by
    intro e v i m he ho
    rw [h2.shows e v _ _ he (h1.shows e v i m he ho), h1.tracks.1, h1.tracks.2.1]
    cases x.insertion <;> cases y.insertion <;> cases x.modification <;> cases y.modification <;> cases s.trkIns <;>
      cases s.trkMod <;> rfl
  absent := fun e he ho => h2.absent e he (h1.absent e he ho)
  order := ⟨h2.order.1.trans h1.order.1, h2.order.2.trans h1.order.2⟩
  deleted := h2.deleted.trans h1.deleted
  removed := h2.removed.trans h1.removed
  clears := ⟨h2.clears.1.trans h1.clears.1, h2.clears.2.trans h1.clears.2⟩
  callbacks := ⟨h2.callbacks.1.trans h1.callbacks.1, h2.callbacks.2.trans h1.callbacks.2⟩
  calls := ⟨h2.calls.1.trans h1.calls.1, h2.calls.2.trans h1.calls.2⟩

theorem turnedOn_insertion {s : SparseSet V} {a : Sto V} {L : List (SparseSet.Cell V)} (h : AbsW s a L) :
    TurnedOn (wanted .insertion) s s.trackInsertion := by
  obtain ⟨L', h'⟩ := h.call .trackInsertion (by intro _ _ _ hh; cases hh)
  have hs : ∀ (e : EId), e.gen < 65535 → ∀ o, s.observe e = .ok o → s.trackInsertion.observe e =
      .ok (o.map fun p => (p.1, if s.trkIns then p.2.1 else some 0, p.2.2)) := by
    intro e he o ho
    rw [h.toAbs.observe he] at ho
    rw [h'.toAbs.observe he]
    cases ho
    unfold SparseSet.Sto.observe StoSpec.step
    simp only [h.trkIns]
    cases a.trkIns
    · simp only [Bool.false_eq_true, if_false]
      cases a.rows e.idx with
      | none => rfl
      | some r =>
        show Except.ok (if r.gen = e.gen then _ else _) = Except.ok (Option.map _ (if r.gen = e.gen then _ else _))
        split <;> rfl
    · simp only [if_true]
      cases a.rows e.idx with
      | none => rfl
      | some r =>
        show Except.ok (if r.gen = e.gen then _ else _) = Except.ok (Option.map _ (if r.gen = e.gen then _ else _))
        split <;> rfl
  refine ⟨?_, ?_, fun e he ho => hs e he none ho, ?_, ?_, ?_, ?_, ?_, ?_⟩
  · unfold SparseSet.trackInsertion wanted
    cases hh : s.trkIns <;> simp [hh]
  · intro e v i m he ho
    rw [hs e he _ ho]
    unfold wanted
    cases s.trkIns <;> rfl
  all_goals (unfold SparseSet.trackInsertion; split <;> simp)

theorem turnedOn_modification {s : SparseSet V} {a : Sto V} {L : List (SparseSet.Cell V)} (h : AbsW s a L) :
    TurnedOn (wanted .modification) s s.trackModification := by
  obtain ⟨L', h'⟩ := h.call .trackModification (by intro _ _ _ hh; cases hh)
  have hs : ∀ (e : EId), e.gen < 65535 → ∀ o, s.observe e = .ok o → s.trackModification.observe e =
      .ok (o.map fun p => (p.1, p.2.1, if s.trkMod then p.2.2 else some 0)) := by
    intro e he o ho
    rw [h.toAbs.observe he] at ho
    rw [h'.toAbs.observe he]
    cases ho
    unfold SparseSet.Sto.observe StoSpec.step
    simp only [h.trkMod]
    cases a.trkMod
    · simp only [Bool.false_eq_true, if_false]
      cases a.rows e.idx with
      | none => rfl
      | some r =>
        show Except.ok (if r.gen = e.gen then _ else _) = Except.ok (Option.map _ (if r.gen = e.gen then _ else _))
        split <;> rfl
    · simp only [if_true]
      cases a.rows e.idx with
      | none => rfl
      | some r =>
        show Except.ok (if r.gen = e.gen then _ else _) = Except.ok (Option.map _ (if r.gen = e.gen then _ else _))
        split <;> rfl
  refine ⟨?_, ?_, fun e he ho => hs e he none ho, ?_, ?_, ?_, ?_, ?_, ?_⟩
  · unfold SparseSet.trackModification wanted
    cases hh : s.trkMod <;> simp [hh]
  · intro e v i m he ho
    rw [hs e he _ ho]
    unfold wanted
    cases s.trkMod <;> rfl
  all_goals (unfold SparseSet.trackModification; split <;> simp)

theorem turnedOn_deletion (s : SparseSet V) : TurnedOn (wanted .deletion) s s.trackDeletion where
  tracks := by simp [SparseSet.trackDeletion, wanted]
  shows := fun _ _ _ _ _ ho => ho
  absent := fun _ _ ho => ho
  order := ⟨rfl, rfl⟩
  deleted := rfl
  removed := rfl
  clears := ⟨rfl, rfl⟩
  callbacks := ⟨rfl, rfl⟩
  calls := ⟨rfl, rfl⟩

theorem turnedOn_removal (s : SparseSet V) : TurnedOn (wanted .removal) s s.trackRemoval where
  tracks := by simp [SparseSet.trackRemoval, wanted]
  shows := fun _ _ _ _ _ ho => ho
  absent := fun _ _ ho => ho
  order := ⟨rfl, rfl⟩
  deleted := rfl
  removed := rfl
  clears := ⟨rfl, rfl⟩
  callbacks := ⟨rfl, rfl⟩
  calls := ⟨rfl, rfl⟩

theorem turnedOn_on {s : SparseSet V} {a : Sto V} {L : List (SparseSet.Cell V)} (h : AbsW s a L) (c : TrackCall) :
    TurnedOn (wanted c) s (c.on s) := by
  cases c with
  | insertion => exact turnedOn_insertion h
  | modification => exact turnedOn_modification h
  | deletion => exact turnedOn_deletion s
  | removal => exact turnedOn_removal s
  | all =>
    obtain ⟨L', h'⟩ := h.call .trackInsertion (by intro _ _ _ hh; cases hh)
    exact (((turnedOn_insertion h).trans (turnedOn_modification h')).trans (turnedOn_deletion _)).trans (turnedOn_removal _)

theorem on_on (c : TrackCall) (s : SparseSet V) : c.on (c.on s) = c.on s := by
  obtain ⟨sp, de, da, li, lm, ii, mm, dd, rr, ti, tm, td, tr, hi, oi, hr, or, cc⟩ := s
  cases c <;> cases ti <;> cases tm <;> rfl

theorem reach_on {w : World V} {h : List Event} (hr : Reach fl w h) (c : TrackCall) (k : Nat) :
    Reach fl (w.put k (c.on (w.stoOr fl k))) h := by
  have hc := Reach.create (fl := fl) k hr
  have hk : lookupK (w.create fl k).stos k = some (w.stoOr fl k) := by
    unfold World.create; rw [lookupK_put, if_pos rfl]
  have put2 : ∀ (u : World V) (s t : SparseSet V), (u.put k s).put k t = u.put k t := by
    intro u s t; unfold World.put; simp only [Serde.setK_setK]
  have step : ∀ {s : SparseSet V} {ev : StoSpec.Event V} {t : SparseSet V}, Reach fl (w.put k s) h → StoSpec.Step s ev t →
      InsertsNothing ev → Reach fl (w.put k t) h := by
    intro s ev t hs ht hev
    have := Reach.view hs (by rw [lookupK_put, if_pos rfl]) ht hev
    rwa [put2] at this
  have h0 : Reach fl (w.put k (w.stoOr fl k)) h := hc
  cases c with
  | insertion => exact step h0 .trackInsertion trivial
  | modification => exact step h0 .trackModification trivial
  | deletion => exact step h0 .trackDeletion trivial
  | removal => exact step h0 .trackRemoval trivial
  | all =>
    exact step (step (step (step h0 .trackInsertion trivial) .trackModification trivial) .trackDeletion trivial) .trackRemoval trivial

theorem trackOn_lookup (c : TrackCall) : ∀ (ks : List Nat) (w : World V),
    (∀ k ∈ ks, lookupK (w.trackOn fl c ks).stos k = some (c.on (w.stoOr fl k))) ∧
    (∀ k, k ∉ ks → lookupK (w.trackOn fl c ks).stos k = lookupK w.stos k) ∧
    (w.trackOn fl c ks).ents = w.ents ∧ (w.trackOn fl c ks).counter = w.counter
  | [], w => ⟨(fun k hk => by cases hk), fun _ _ => rfl, rfl, rfl⟩
  | j :: ks, w => by
    obtain ⟨h1, h2, h3, h4⟩ := trackOn_lookup c ks (w.put j (c.on (w.stoOr fl j)))
    have hj : (w.put j (c.on (w.stoOr fl j))).stoOr fl j = c.on (w.stoOr fl j) := by
      unfold World.stoOr; rw [lookupK_put, if_pos rfl]; rfl
    refine ⟨fun k hk => ?_, fun k hk => ?_, h3, h4⟩
    · show lookupK (World.trackOn fl c ks _).stos k = _
      by_cases hkj : k = j
      · subst hkj
        by_cases hks : k ∈ ks
        · rw [h1 k hks, hj, on_on]
        · rw [h2 k hks, lookupK_put, if_pos rfl]
      · have hks : k ∈ ks := by
          cases hk with
          | head => exact absurd rfl hkj
          | tail _ h => exact h
        rw [h1 k hks, stoOr_put_ne hkj]
    · show lookupK (World.trackOn fl c ks _).stos k = _
      rw [List.mem_cons, not_or] at hk
      rw [h2 k hk.2, lookupK_put, if_neg hk.1]

theorem trackOn_reach (c : TrackCall) : ∀ (ks : List Nat) {w : World V} {h : List Event}, Reach fl w h →
    Reach fl (w.trackOn fl c ks) h
  | [], _, _, hr => hr
  | k :: ks, _, _, hr => trackOn_reach c ks (reach_on hr c k)

end WSpec

/-- C102: each listed component type has what was asked for turned on, and nothing else of it changes; storages of other types,
entities and the clock are not touched. -/
theorem C102_turned_on {w : World V} {h : List Event} (hr : Reach fl w h) (c : TrackCall) (ks : List Nat) :
    Reach fl (w.trackOn fl c ks) h ∧
    (∀ k ∈ ks, ∃ s', lookupK (w.trackOn fl c ks).stos k = some s' ∧ TurnedOn (wanted c) (w.stoOr fl k) s') ∧
    (∀ k, k ∉ ks → lookupK (w.trackOn fl c ks).stos k = lookupK w.stos k) ∧
    (w.trackOn fl c ks).ents = w.ents ∧ (w.trackOn fl c ks).counter = w.counter := by
  obtain ⟨h1, h2, h3, h4⟩ := trackOn_lookup (fl := fl) c ks w
  obtain ⟨A, Q, hok⟩ := reach_ok hr
  refine ⟨trackOn_reach c ks hr, fun k hk => ⟨_, h1 k hk, ?_⟩, h2, h3, h4⟩
  obtain ⟨L, ha⟩ := hok.stoOr (fl := fl) k
  exact turnedOn_on ha c

/-- C102: a call for what is already tracked changes nothing at all. -/
theorem C102_again (w : World V) (c : TrackCall) (k : Nat) (s : SparseSet V) (hk : lookupK w.stos k = some s)
    (hi : (wanted c).insertion = true → s.trkIns = true) (hm : (wanted c).modification = true → s.trkMod = true)
    (hd : (wanted c).deletion = true → s.trkDel = true) (hrm : (wanted c).removal = true → s.trkRem = true) :
    ∀ j, lookupK (w.trackOn fl c [k]).stos j = lookupK w.stos j := by
  obtain ⟨h1, h2, _⟩ := trackOn_lookup (fl := fl) c [k] w
  intro j
  by_cases hj : j = k
  · subst hj
    rw [h1 j List.mem_cons_self, hk]
    have : w.stoOr fl j = s := by unfold World.stoOr; rw [hk]; rfl
    rw [this]
    have hmod : s.trkMod = true → s.trackModification = s := fun hh => by unfold SparseSet.trackModification; rw [if_pos hh]
    have hins : s.trkIns = true → s.trackInsertion = s := fun hh => by unfold SparseSet.trackInsertion; rw [if_pos hh]
    have hdel : s.trkDel = true → s.trackDeletion = s := fun hh => by
      unfold SparseSet.trackDeletion; cases s; cases hh; rfl
    have hrem : s.trkRem = true → s.trackRemoval = s := fun hh => by
      unfold SparseSet.trackRemoval; cases s; cases hh; rfl
    cases c with
    | insertion => exact congrArg some (hins (hi rfl))
    | modification => exact congrArg some (hmod (hm rfl))
    | deletion => exact congrArg some (hdel (hd rfl))
    | removal => exact congrArg some (hrem (hrm rfl))
    | all =>
      show some (s.trackInsertion.trackModification.trackDeletion.trackRemoval) = some s
      rw [hins (hi rfl), hmod (hm rfl), hdel (hd rfl), hrem (hrm rfl)]
  · exact h2 j (by simpa using hj)

/-- C102, in views: no component that was there when tracking was turned on is reported for it, whatever the window of the view;
what was tracked already is reported as before, and so are removed and deleted components. -/
theorem C102_view {w : World V} {h : List Event} (hr : Reach fl w h) (c : TrackCall) {ks : List Nat} {k : Nat} (hk : k ∈ ks)
    {s' : SparseSet V} (hs : lookupK (w.trackOn fl c ks).stos k = some s') {v : Tracking.View V} (hv : v.set = w.stoOr fl k) {e : EId}
    (he : e.gen < 65535) :
    ((wanted c).insertion = true → v.set.trkIns = false → ({ v with set := s' } : Tracking.View V).isInserted e = .ok false) ∧
    ((wanted c).modification = true → v.set.trkMod = false → ({ v with set := s' } : Tracking.View V).isModified e = .ok false) ∧
    (v.set.trkIns = true → ({ v with set := s' } : Tracking.View V).isInserted e = v.isInserted e) ∧
    (v.set.trkMod = true → ({ v with set := s' } : Tracking.View V).isModified e = v.isModified e) ∧
    ({ v with set := s' } : Tracking.View V).removed = v.removed ∧ ({ v with set := s' } : Tracking.View V).deleted = v.deleted := by
  obtain ⟨_, h1, _⟩ := C102_turned_on (fl := fl) hr c ks
  obtain ⟨t, ht, hT⟩ := h1 k hk
  rw [hs] at ht
  cases ht
  rw [← hv] at hT
  obtain ⟨A, Q, hok⟩ := reach_ok hr
  obtain ⟨L, ha⟩ := hok.stoOr (fl := fl) k
  rw [← hv] at ha
  have hob := ha.toAbs.observe he
  have hz : ∀ a b : Nat, Tracking.isWithin 0 a b = false := by
    intro a b; unfold Tracking.isWithin; simp
  refine ⟨fun hw hn => ?_, fun hw hn => ?_, fun hn => ?_, fun hn => ?_, ?_, ?_⟩
  · cases ho : SparseSet.Sto.observe (tabOr fl A k) e with
    | none =>
      rw [ho] at hob
      exact (flags_of_gone (v := { v with set := s' }) (hT.absent e he hob)).1
    | some p =>
      obtain ⟨x, i, m⟩ := p
      rw [ho] at hob
      have := hT.shows e x i m he hob
      rw [(flags_of_observe (v := { v with set := s' }) this).1 0 (by rw [hw, hn]; rfl), hz]
  · cases ho : SparseSet.Sto.observe (tabOr fl A k) e with
    | none =>
      rw [ho] at hob
      exact (flags_of_gone (v := { v with set := s' }) (hT.absent e he hob)).2
    | some p =>
      obtain ⟨x, i, m⟩ := p
      rw [ho] at hob
      have := hT.shows e x i m he hob
      rw [(flags_of_observe (v := { v with set := s' }) this).2 0 (by rw [hw, hn]; rfl), hz]
  · cases ho : SparseSet.Sto.observe (tabOr fl A k) e with
    | none =>
      rw [ho] at hob
      rw [(flags_of_gone (v := { v with set := s' }) (hT.absent e he hob)).1, (flags_of_gone hob).1]
    | some p =>
      obtain ⟨x, i, m⟩ := p
      rw [ho] at hob
      have h2 := hT.shows e x i m he hob
      rw [hn, Bool.not_true, Bool.and_false, if_neg Bool.false_ne_true] at h2
      have hi : ∃ t, i = some t := by
        unfold SparseSet.Sto.observe at ho
        rw [← ha.trkIns, hn] at ho
        cases hrw : (tabOr fl A k).rows e.idx with
        | none => rw [hrw] at ho; cases ho
        | some r =>
          rw [hrw] at ho
          simp only [Option.bind] at ho
          split at ho
          · cases ho; exact ⟨_, rfl⟩
          · cases ho
      obtain ⟨t, rfl⟩ := hi
      rw [(flags_of_observe (v := { v with set := s' }) h2).1 t rfl, (flags_of_observe hob).1 t rfl]
  · cases ho : SparseSet.Sto.observe (tabOr fl A k) e with
    | none =>
      rw [ho] at hob
      rw [(flags_of_gone (v := { v with set := s' }) (hT.absent e he hob)).2, (flags_of_gone hob).2]
    | some p =>
      obtain ⟨x, i, m⟩ := p
      rw [ho] at hob
      have h2 := hT.shows e x i m he hob
      rw [hn, Bool.not_true, Bool.and_false, if_neg Bool.false_ne_true] at h2
      have hi : ∃ t, m = some t := by
        unfold SparseSet.Sto.observe at ho
        rw [← ha.trkMod, hn] at ho
        cases hrw : (tabOr fl A k).rows e.idx with
        | none => rw [hrw] at ho; cases ho
        | some r =>
          rw [hrw] at ho
          simp only [Option.bind] at ho
          split at ho
          · cases ho; exact ⟨_, rfl⟩
          · cases ho
      obtain ⟨t, rfl⟩ := hi
      rw [(flags_of_observe (v := { v with set := s' }) h2).2 t rfl, (flags_of_observe hob).2 t rfl]
  · unfold Tracking.View.removed
    rw [show ({ v with set := s' } : Tracking.View V).set.removalData = v.set.removalData from hT.removed]
  · unfold Tracking.View.deleted
    rw [show ({ v with set := s' } : Tracking.View V).set.deletionData = v.set.deletionData from hT.deleted]

/-- C102, what follows: once insertion (or modification) tracking is on, `add_component` of a component the entity did not have (or
had) shows the time of the call. -/
theorem C102_then_added {w : World V} {h : List Event} (hr : Reach fl w h) (c : TrackCall) {ks : List Nat} {k : Nat} (hk : k ∈ ks)
    {e : EId} (he : w.isAlive e = true) {x : V} :
    ∃ w' s', (w.trackOn fl c ks).addComponent fl e [(k, some x)] = .ok (.returned, w') ∧ lookupK w'.stos k = some s' ∧
      ((w.stoOr fl k).observe e = .ok none → (wanted c).insertion = true → ∃ m, s'.observe e = .ok (some (x, some w.counter, m))) ∧
      (∀ p, (w.stoOr fl k).observe e = .ok (some p) → (wanted c).modification = true →
        ∃ i, s'.observe e = .ok (some (x, i, some w.counter))) := by
  obtain ⟨hr1, h1, _, h3, h4⟩ := C102_turned_on (fl := fl) hr c ks
  obtain ⟨s, hs, hT⟩ := h1 k hk
  have he1 : (w.trackOn fl c ks).isAlive e = true := by
    show (w.trackOn fl c ks).ents.isAlive e = true
    rw [h3]; exact he
  obtain ⟨w', g1, g2, _⟩ := C95_add_component (fl := fl) hr1 he1 (cs := [(k, some x)]) (List.nodup_cons.2 ⟨by simp, List.nodup_nil⟩)
  obtain ⟨s', g3, g4⟩ := g2 k x List.mem_cons_self
  have hso : (w.trackOn fl c ks).stoOr fl k = s := by unfold World.stoOr; rw [hs]; rfl
  rw [hso, h4] at g4
  obtain ⟨A, Q, hok⟩ := reach_ok hr
  have hge : e.gen < 65535 := by
    have := hok.ent.valid (show w.ents.isAlive e = true from he)
    exact this.1
  refine ⟨w', s', g1, g3, fun hn hw => ?_, fun p hp hw => ?_⟩
  · have := g4.new (hT.absent e hge hn)
    rw [hT.tracks.1, hw, Bool.or_true] at this
    exact ⟨_, this⟩
  · obtain ⟨y, i, m⟩ := p
    have := g4.replaced y _ _ (hT.shows e y i m hge hp)
    rw [hT.tracks.2.1, hw, Bool.or_true] at this
    exact ⟨_, this⟩

theorem WSpec.on_get (c : TrackCall) (s : SparseSet V) (e : EId) : (c.on s).get e = s.get e := by
  have h1 : ∀ s : SparseSet V, s.trackInsertion.get e = s.get e := by
    intro s; unfold SparseSet.trackInsertion; split <;> rfl
  have h2 : ∀ s : SparseSet V, s.trackModification.get e = s.get e := by
    intro s; unfold SparseSet.trackModification; split <;> rfl
  cases c with
  | insertion => exact h1 s
  | modification => exact h2 s
  | deletion => rfl
  | removal => rfl
  | all => exact (h2 _).trans (h1 s)

/-- C102: every component stays what it was, in every storage. -/
theorem C102_get (w : World V) (c : TrackCall) (ks : List Nat) (k : Nat) (e : EId) :
    (w.trackOn fl c ks).get k e = w.get k e := by
  obtain ⟨h1, h2, _⟩ := trackOn_lookup (fl := fl) c ks w
  unfold World.get
  by_cases hk : k ∈ ks
  · rw [h1 k hk]
    show (c.on (w.stoOr fl k)).get e = _
    rw [on_get]
    unfold World.stoOr
    cases lookupK w.stos k with
    | none => exact GetComp.newSto_get k e
    | some s => rfl
  · rw [h2 k hk]

/-- C102, what follows: once deletion tracking is on, deleting the entity records the component it had, with the time of the call. -/
theorem C102_then_deleted {w : World V} {h : List Event} (hr : Reach fl w h) (c : TrackCall) {ks : List Nat} {k : Nat} (hk : k ∈ ks)
    (hw : (wanted c).deletion = true) {e : EId} (he : w.isAlive e = true) {x : V} (hx : w.get k e = .ok (some x)) :
    ∃ w' s', (w.trackOn fl c ks).deleteEntity e = .ok (true, w') ∧ lookupK w'.stos k = some s' ∧
      s'.deletionData = (w.stoOr fl k).deletionData ++ [(e, w.counter, x)] := by
  obtain ⟨hr1, h1, _, h3, h4⟩ := C102_turned_on (fl := fl) hr c ks
  obtain ⟨s, hs, hT⟩ := h1 k hk
  have he1 : (w.trackOn fl c ks).isAlive e = true := by
    show (w.trackOn fl c ks).ents.isAlive e = true
    rw [h3]; exact he
  obtain ⟨w', g1, g2⟩ := C95_delete_entity hr1 he1
  obtain ⟨s', g3, g4⟩ := g2 k s hs
  refine ⟨w', s', g1, g3, ?_⟩
  have hx2 := (C102_get (fl := fl) w c ks k e).trans hx
  unfold World.get at hx2
  rw [hs] at hx2
  rw [g4.deleted, hT.deleted, hT.tracks.2.2.1, hw, Bool.or_true, h4]
  unfold whenOn had
  rw [show s.get e = .ok (some x) from hx2]
  rfl

/-- C102, what follows: once removal tracking is on, removing the component records it, with the time of the call. -/
theorem C102_then_removed {w : World V} {h : List Event} (hr : Reach fl w h) (c : TrackCall) {ks : List Nat} {k : Nat} (hk : k ∈ ks)
    (hw : (wanted c).removal = true) {e : EId} (he : w.isAlive e = true) {x : V} (hx : w.get k e = .ok (some x)) :
    ∃ rs w' s', (w.trackOn fl c ks).remove fl [k] e = .ok (rs, w') ∧ lookupK w'.stos k = some s' ∧
      s'.removalData = (w.stoOr fl k).removalData ++ [(e, w.counter)] := by
  obtain ⟨hr1, h1, _, h3, h4⟩ := C102_turned_on (fl := fl) hr c ks
  obtain ⟨s, hs, hT⟩ := h1 k hk
  have he1 : (w.trackOn fl c ks).isAlive e = true := by
    show (w.trackOn fl c ks).ents.isAlive e = true
    rw [h3]; exact he
  obtain ⟨rs, w', g1, g2, _⟩ := C95_remove (fl := fl) hr1 he1 (ks := [k]) (List.nodup_cons.2 ⟨by simp, List.nodup_nil⟩)
  obtain ⟨s', g3, g4⟩ := g2 k List.mem_cons_self
  have hso : (w.trackOn fl c ks).stoOr fl k = s := by unfold World.stoOr; rw [hs]; rfl
  rw [hso] at g4
  refine ⟨rs, w', s', g1, g3, ?_⟩
  have hx2 := (C102_get (fl := fl) w c ks k e).trans hx
  unfold World.get at hx2
  rw [hs] at hx2
  rw [g4.removed, hT.removed, hT.tracks.2.2.2, hw, Bool.or_true, h4]
  unfold whenOn had
  rw [show s.get e = .ok (some x) from hx2]
  rfl

/-! ## A case -/

/-- Nothing is tracked by default. -/
def WSpec.demoNone : Flags := fun _ => (false, false, false, false)

/-- Entities `0` (components 10 and 20) and `1` (component 11), nothing tracked. -/
def WSpec.untracked : World Nat :=
  match (World.new : World Nat).addEntity WSpec.demoNone [(0, some 10), (1, some 20)] with
  | .ok (_, _, w1) =>
    match w1.addEntity WSpec.demoNone [(0, some 11)] with
    | .ok (_, _, w2) => w2
    | .error _ => w1
  | .error _ => World.new

theorem WSpec.untracked_reach : Reach WSpec.demoNone WSpec.untracked [.added ⟨0, 0⟩, .added ⟨1, 0⟩] :=
  .addEntity (cs := [(0, some 11)]) (r := .returned)
    (.addEntity (cs := [(0, some 10), (1, some 20)]) (r := .returned) (.init false) rfl (by unfold Fits; decide))
    rfl (by unfold Fits; decide)

/-- `track_all` for the types 0, 2 and 0 again: type 2 had no storage, type 1 is not concerned. -/
example : (lookupK (WSpec.untracked.trackOn WSpec.demoNone .all [0, 2, 0]).stos 0).map (·.observe ⟨0, 0⟩) =
      some (.ok (some (10, some 0, some 0))) ∧
    (lookupK (WSpec.untracked.trackOn WSpec.demoNone .all [0, 2, 0]).stos 1).map (·.observe ⟨0, 0⟩) =
      some (.ok (some (20, none, none))) ∧
    (lookupK (WSpec.untracked.trackOn WSpec.demoNone .all [0, 2, 0]).stos 2).map (fun s => (s.trkIns, s.trkRem)) = some (true, true) ∧
    lookupK WSpec.untracked.stos 2 = none ∧ WSpec.untracked.isAlive ⟨0, 0⟩ = true ∧ WSpec.untracked.get 0 ⟨0, 0⟩ = .ok (some 10) :=
  ⟨rfl, rfl, rfl, rfl, rfl, rfl⟩

/-- The four calls that follow. -/
example : ∃ w', (WSpec.untracked.trackOn WSpec.demoNone .deletion [0, 1]).deleteEntity ⟨0, 0⟩ = .ok (true, w') ∧
    (lookupK w'.stos 0).map (·.deletionData) = some [(⟨0, 0⟩, 3, 10)] :=
  ⟨_, rfl, rfl⟩

end Verif
