import Verif.Lemmas.WorldReports
import Verif.Props.WorldTracking

/-!
# C95: what calls on entities leave in the records of the storages
-/
namespace Verif
open EntSpec (Event)
open WSpec
open World
variable {V : Type} {fl : Flags}

/-- C95 for `add_component`: each listed storage records one insertion, or modification, at the time of the call; the others are not
touched at all. -/
theorem C95_add_component {w : World V} {h : List Event} (hr : Reach fl w h) {e : EId} (he : w.isAlive e = true)
    {cs : List (Nat × Option V)} (hn : (cs.map Prod.fst).Nodup) :
    ∃ w', w.addComponent fl e cs = .ok (.returned, w') ∧
      (∀ k v, (k, some v) ∈ cs → ∃ s', lookupK w'.stos k = some s' ∧ Gained e v w.counter (w.stoOr fl k) s') ∧
      ∀ k, (∀ v, (k, some v) ∉ cs) → lookupK w'.stos k = lookupK w.stos k := by
  obtain ⟨A, Q, hok⟩ := reach_ok hr
  obtain ⟨w', A', h1, _, _, _⟩ := hok.addComponent (fl := fl) he cs
  refine ⟨w', h1, ?_⟩
  have he' : w.ents.isAlive e = true := he
  unfold World.addComponent at h1
  rw [if_pos he'] at h1
  obtain ⟨g1, g2⟩ := addAll_each h1 hn
  refine ⟨fun k v hm => ?_, g1⟩
  obtain ⟨r, s', h3, h4⟩ := g2 k v hm
  exact ⟨s', h4, hok.gained he h3⟩

/-- C95 for `add_entity`: each listed storage records one insertion of the new entity. -/
theorem C95_add_entity {w w' : World V} {h : List Event} (hr : Reach fl w h) {cs : List (Nat × Option V)}
    (hn : (cs.map Prod.fst).Nodup) {e : EId} {r : Ended} (hadd : w.addEntity fl cs = .ok (e, r, w')) (hfit : Fits w') :
    r = .returned ∧
      (∀ k v, (k, some v) ∈ cs → ∃ s', lookupK w'.stos k = some s' ∧ Gained e v w.counter (w.stoOr fl k) s' ∧
        (w.stoOr fl k).observe e = .ok none) ∧
      ∀ k, (∀ v, (k, some v) ∉ cs) → lookupK w'.stos k = lookupK w.stos k := by
  obtain ⟨A, Q, hok⟩ := reach_ok hr
  have hadd0 := hadd
  unfold World.addEntity at hadd
  simp only [bind, Except.bind] at hadd
  split at hadd
  · cases hadd
  rename_i x hg
  obtain ⟨e', ents⟩ := x
  dsimp only at hadd
  split at hadd
  · cases hadd
  rename_i y hy
  obtain ⟨r', w2⟩ := y
  cases hadd
  have hcap : ents.data.length < EId.maxIndex := by
    have := addAll_ents _ _ _ hy
    have hfit := hfit
    unfold Fits at hfit
    rw [this] at hfit
    exact hfit
  obtain ⟨⟨Q', hE⟩, hal, hno⟩ := ent_generate hok.ent hg hcap
  have h1 : Ok { w.tick with ents := ents } A Q' (EntSpec.issued h ++ [e]) :=
    hok.tick.ents hE (fun k a i r ha hr => (hal _).2 (.inl (hok.owned k a ha i r hr)))
  have hea : ents.isAlive e = true := (hal e).2 (.inr rfl)
  obtain ⟨w3, A3, h2, _, _, _, _⟩ := h1.addAll (fl := fl) (e := e) hea w.counter cs
  rw [hy] at h2
  cases h2
  obtain ⟨g1, g2⟩ := addAll_each hy hn
  refine ⟨rfl, fun k v hm => ?_, g1⟩
  obtain ⟨r, s', h3, h4⟩ := g2 k v hm
  refine ⟨s', h4, h1.gained hea h3, ?_⟩
  obtain ⟨L, ha⟩ := hok.stoOr (fl := fl) k
  have hdead : w.ents.isAlive e = false := by
    cases hb : w.ents.isAlive e with
    | false => rfl
    | true => exact absurd rfl (hno e hb)
  have hl : StoSpec.lookup (tabOr fl A k).rows e = none := by rw [lookup_tabOr, hok.look_dead k hdead]
  rw [ha.toAbs.observe (hE.valid hea).1, (observe_none_iff _ _).2 hl]

/-- C95 for `delete_entity`: every storage records one deletion if the entity had the component, at the time of the call. -/
theorem C95_delete_entity {w : World V} {h : List Event} (hr : Reach fl w h) {e : EId} (he : w.isAlive e = true) :
    ∃ w', w.deleteEntity e = .ok (true, w') ∧
      ∀ k s, lookupK w.stos k = some s → ∃ s', lookupK w'.stos k = some s' ∧ Deleted e w.counter s s' := by
  obtain ⟨A, Q, hok⟩ := reach_ok hr
  have he' : w.ents.isAlive e = true := he
  obtain ⟨w', A', Q', h1, _⟩ := hok.deleteEntity (hok.ent.valid he')
  rw [he'] at h1
  exact ⟨w', h1, (deleteEntity_each hok he' h1).2⟩

/-- C95 for `strip`: as for `delete_entity`. -/
theorem C95_strip {w : World V} {h : List Event} (hr : Reach fl w h) {e : EId} (he : w.isAlive e = true) :
    ∃ w', w.strip e = .ok w' ∧
      ∀ k s, lookupK w.stos k = some s → ∃ s', lookupK w'.stos k = some s' ∧ Deleted e w.counter s s' := by
  obtain ⟨A, Q, hok⟩ := reach_ok hr
  have he' : w.ents.isAlive e = true := he
  obtain ⟨w', A', h1, _⟩ := hok.strip (hok.ent.valid he')
  refine ⟨w', h1, fun k s hk => ?_⟩
  unfold World.strip at h1
  simp only [bind, Except.bind] at h1
  split at h1
  · cases h1
  rename_i l hl
  cases h1
  obtain ⟨s', h2, h3⟩ := mapStos_each hl k s hk
  exact ⟨s', h2, hok.deleted he' hk h3⟩

/-- C95 for `retain_storage` of at least one type: the storages named are not touched, each of the others records a deletion. -/
theorem C95_retain_storage {w : World V} {h : List Event} (hr : Reach fl w h) {e : EId} (he : w.isAlive e = true) {keep : List Nat}
    (hk : keep ≠ []) :
    ∃ w', w.retainStorage e keep = .ok w' ∧
      ∀ k s, lookupK w.stos k = some s → ∃ s', lookupK w'.stos k = some s' ∧
        if k ∈ keep then s' = s else Deleted e w.counter s s' := by
  obtain ⟨A, Q, hok⟩ := reach_ok hr
  have he' : w.ents.isAlive e = true := he
  obtain ⟨w', A', h1, _⟩ := hok.retainStorageById (hok.ent.valid he') keep
  refine ⟨w', by cases keep with
    | nil => exact absurd rfl hk
    | cons => exact h1, fun k s hk => ?_⟩
  unfold World.retainStorageById at h1
  simp only [bind, Except.bind] at h1
  split at h1
  · cases h1
  rename_i l hl
  cases h1
  obtain ⟨s', h2, h3⟩ := mapStos_each hl k s hk
  refine ⟨s', h2, ?_⟩
  by_cases hm : k ∈ keep
  · rw [if_pos hm]
    rw [if_pos (by simpa using hm)] at h3
    cases h3; rfl
  · rw [if_neg hm]
    rw [if_neg (by simpa using hm)] at h3
    exact hok.deleted he' hk h3

/-- C95 for `remove`: each listed storage records one removal if the entity had the component; the others are not touched. -/
theorem C95_remove {w : World V} {h : List Event} (hr : Reach fl w h) {e : EId} (he : w.isAlive e = true) {ks : List Nat}
    (hn : ks.Nodup) :
    ∃ rs w', w.remove fl ks e = .ok (rs, w') ∧
      (∀ k ∈ ks, ∃ s', lookupK w'.stos k = some s' ∧ Removed e w.counter (w.stoOr fl k) s') ∧
      ∀ k, k ∉ ks → lookupK w'.stos k = lookupK w.stos k := by
  obtain ⟨A, Q, hok⟩ := reach_ok hr
  have he' : w.ents.isAlive e = true := he
  obtain ⟨rs, w', A', h1, _⟩ := hok.tick.removeAll (fl := fl) (hok.ent.valid he') w.counter ks
  refine ⟨rs, w', h1, ?_⟩
  obtain ⟨g1, g2⟩ := removeAll_each h1 hn
  refine ⟨fun k hk => ?_, g1⟩
  obtain ⟨r, s', h3, h4⟩ := g2 k hk
  exact ⟨s', h4, hok.removed_or he' h3⟩

/-- C95 for `clear`: every storage records the deletion of each of its components. -/
theorem C95_clear {w : World V} {h : List Event} (hr : Reach fl w h) (hg : ∀ e ∈ w.ents.data, e.gen < 65533) :
    ∃ w', w.clear = .ok w' ∧
      ∀ k s, lookupK w.stos k = some s → ∃ s' rows, lookupK w'.stos k = some s' ∧ Emptied w.counter s s' rows := by
  obtain ⟨A, Q, hok⟩ := reach_ok hr
  obtain ⟨w', A', Q', h1, _⟩ := hok.clear hg
  refine ⟨w', h1, fun k s hk => ?_⟩
  unfold World.clear at h1
  simp only [bind, Except.bind] at h1
  split at h1
  · cases h1
  split at h1
  · cases h1
  rename_i l hl
  cases h1
  obtain ⟨s', h2, h3⟩ := mapStos_each hl k s hk
  obtain ⟨rows, h4⟩ := hok.emptied hk h3
  exact ⟨s', rows, h2, h4⟩

/-- What a move does to the records of both worlds. -/
def WSpec.Moved (fl : Flags) (src dst : EId) (w o w' o' : World V) : Prop :=
  (∀ k s, lookupK w.stos k = some s → ∃ s', lookupK w'.stos k = some s' ∧ Removed src w.counter s s') ∧
  (∀ k v, w.get k src = .ok (some v) → ∃ t', lookupK o'.stos k = some t' ∧ Gained dst v o.counter (o.stoOr fl k) t') ∧
  ∀ k, w.get k src = .ok none → lookupK o'.stos k = lookupK o.stos k

theorem moved_of {w o o1 o' : World V} {A B : Nat → Option (StoSpec.Sto V)} {Q Q2 : List Nat} {I I2 : List EId}
    (h : Ok w A Q I) (ho : Ok o1 B Q2 I2) (hso : o1.stos = o.stos) {src dst : EId} (hs : w.ents.isAlive src = true)
    (hd : o1.ents.isAlive dst = true) {l} (hm : moveLoop fl src dst w.counter o.counter w.stos o1 = .ok (l, o'))
    {w' : World V} (hw : w'.stos = l) : WSpec.Moved fl src dst w o w' o' := by
  obtain ⟨g1, g2⟩ := moveLoop_each hm h.nodup
  have hor : ∀ k, o1.stoOr fl k = o.stoOr fl k := fun k => stoOr_eq (by rw [hso])
  refine ⟨fun k s hk => ?_, fun k v hv => ?_, fun k hv => ?_⟩
  · obtain ⟨c, s', h1, h2, _, _⟩ := g2 k s hk
    exact ⟨s', by rw [hw]; exact h2, (h.removed hs hk h1).1⟩
  · unfold World.get at hv
    cases hk : lookupK w.stos k with
    | none => rw [hk] at hv; cases hv
    | some s =>
      rw [hk] at hv
      have hv : s.get src = .ok (some v) := hv
      obtain ⟨c, s', h1, h2, _, h4⟩ := g2 k s hk
      have h5 := (h.removed hs hk h1).2
      rw [hv] at h5
      cases h5
      obtain ⟨r, t, h6, h7⟩ := h4 v rfl
      have h8 := ho.gained hd h6
      rw [hor] at h8
      exact ⟨t, h7, h8⟩
  · unfold World.get at hv
    cases hk : lookupK w.stos k with
    | none => rw [(g1 k hk).2, hso]
    | some s =>
      rw [hk] at hv
      have hv : s.get src = .ok none := hv
      obtain ⟨c, s', h1, h2, h3, _⟩ := g2 k s hk
      have h5 := (h.removed hs hk h1).2
      rw [hv] at h5
      cases h5
      rw [h3 rfl, hso]

/-- C95 for `move_components`: removals here, insertions or modifications there, each at the time of its own world. -/
theorem C95_move_components {w o : World V} {h ho : List Event} (hr : Reach fl w h) (hro : Reach fl o ho) {src dst : EId}
    (hs : w.isAlive src = true) (hd : o.isAlive dst = true) :
    ∃ w' o', w.moveComponents fl o src dst = .ok (.returned, w', o') ∧ WSpec.Moved fl src dst w o w' o' := by
  obtain ⟨A, Q, hok⟩ := reach_ok hr
  obtain ⟨B, Q2, hoko⟩ := reach_ok hro
  have hs' : w.ents.isAlive src = true := hs
  have hd' : o.ents.isAlive dst = true := hd
  obtain ⟨w', o', A', B', h1, _⟩ := hok.moveComponents (fl := fl) hoko hs' hd'
  refine ⟨w', o', h1, ?_⟩
  unfold World.moveComponents at h1
  rw [if_pos hs', if_pos hd'] at h1
  simp only [bind, Except.bind] at h1
  split at h1
  · cases h1
  rename_i x hx
  obtain ⟨l, o2⟩ := x
  cases h1
  exact moved_of (o := o) hok hoko.tick rfl hs' hd' hx rfl

/-- C95 for `move_entity`. -/
theorem C95_move_entity {w o : World V} {h ho : List Event} (hr : Reach fl w h) (hro : Reach fl o ho) {e : EId}
    (he : w.isAlive e = true) (hfree : FreeFor o e) {o1 : World V} (hs : o.spawn e = .ok (true, o1)) (hfit : Fits o1) :
    ∃ w' o', w.moveEntity fl o e = .ok (.returned, w', o') ∧ WSpec.Moved fl e e w o w' o' := by
  obtain ⟨A, Q, hok⟩ := reach_ok hr
  obtain ⟨B, Q2, hoko⟩ := reach_ok hro
  have he' : w.ents.isAlive e = true := he
  unfold World.spawn at hs
  simp only [bind, Except.bind] at hs
  split at hs
  · cases hs
  rename_i y hy
  obtain ⟨b, entsO⟩ := y
  cases hs
  obtain ⟨w', o', A', B', Q', Q2', h1, _⟩ := hok.moveEntity (fl := fl) hoko he' hfree hy hfit
  refine ⟨w', o', h1, ?_⟩
  obtain ⟨Q3, s1, s2, _⟩ := hoko.spawn (hok.ent.valid he') hfree hy hfit
  unfold World.moveEntity at h1
  simp only [bind, Except.bind] at h1
  split at h1
  · cases h1
  split at h1
  · rw [hy] at h1
    dsimp only at h1
    rw [if_pos rfl] at h1
    split at h1
    · cases h1
    rename_i x hx
    obtain ⟨l, o2⟩ := x
    cases h1
    exact moved_of (o := o) hok s1.tick rfl he' ((s2 rfl e).2 (.inr rfl)) hx rfl
  · cases h1

/-- C95 for `bulk_strip`: in every storage one deletion after the other, in the order of the list, all at the time of the call. -/
theorem C95_bulk_strip {w : World V} {h : List Event} (hr : Reach fl w h) {es : List EId} (he : ∀ e ∈ es, w.isAlive e = true) :
    ∃ w', w.bulkStrip es = .ok w' ∧
      ∀ k s, lookupK w.stos k = some s → ∃ s', lookupK w'.stos k = some s' ∧ DeletedEach (es.map fun e => (e, w.counter)) s s' := by
  obtain ⟨A, Q, hok⟩ := reach_ok hr
  have hv : ∀ e ∈ es, StoSpec.Valid e := fun e hm => hok.ent.valid (he e hm)
  obtain ⟨w', A', h1, _⟩ := hok.bulkStrip hv
  refine ⟨w', h1, fun k s hk => ?_⟩
  unfold World.bulkStrip at h1
  simp only [bind, Except.bind] at h1
  split at h1
  · cases h1
  rename_i l hl
  cases h1
  obtain ⟨s', h2, h3⟩ := mapStos_each hl k s hk
  obtain ⟨a, L, hA, ha⟩ := hok.some_tab hk
  exact ⟨s', h2, deletedEach_of w.counter es ha hv (fun e hm r hr => hok.rowAt hA (he e hm) hr) h3⟩

/-- C95 for `delete_component` of one type. -/
theorem C95_delete_component {w : World V} {h : List Event} (hr : Reach fl w h) {e : EId} (he : w.isAlive e = true) (k : Nat) :
    ∃ b w', w.deleteComponent fl [k] e = .ok (b, w') ∧
      (∃ s', lookupK w'.stos k = some s' ∧ Deleted e w.counter (w.stoOr fl k) s') ∧
      ∀ j, j ≠ k → lookupK w'.stos j = lookupK w.stos j := by
  obtain ⟨A, Q, hok⟩ := reach_ok hr
  have he' : w.ents.isAlive e = true := he
  obtain ⟨L, ha⟩ := hok.stoOr (fl := fl) k
  obtain ⟨s', L', h1, h2⟩ := dynDelete_tab ha (hok.ent.valid he') w.counter
  have hd := deleted_of ha h2 (hok.ent.valid he').1 (hok.own_or he' k)
  have hs : w.tick.stoOr fl k = w.stoOr fl k := rfl
  refine ⟨(StoSpec.lookup (tabOr fl A k).rows e).isSome, w.tick.put k s', ?_, ⟨s', by rw [lookupK_put, if_pos rfl], hd⟩, fun j hj => by rw [lookupK_put, if_neg hj]; rfl⟩
  unfold World.deleteComponent
  simp only [deleteFirst, hs, h1, bind, Except.bind]
  cases (StoSpec.lookup (tabOr fl A k).rows e).isSome <;> rfl

/-- C95 for `delete_any`: the storages listed record the deletion of each of their components, at the time of the call; in the others the
entities that had one of them are then deleted one by one, each at a time of its own. -/
theorem C95_delete_any {w : World V} {h : List Event} (hr : Reach fl w h) {ks : List Nat} (hn : ks.Nodup)
    {order : List EId → List EId} (ho : ∀ (ids : List EId) (e : EId), e ∈ order ids ↔ e ∈ ids) (hon : ∀ ids, (order ids).Nodup) :
    ∃ (ids : List EId) (w' : World V), w.deleteAny ks order = .ok w' ∧ ids.Nodup ∧
      (∀ e, e.gen < 65535 → (e ∈ ids ↔ ∃ k ∈ ks, ∃ v, w.get k e = .ok (some v))) ∧
      ∀ k s, lookupK w.stos k = some s → ∃ s', lookupK w'.stos k = some s' ∧
        if k ∈ ks then ∃ rows, Emptied w.counter s s' rows else DeletedEach (ids.zipIdx (w.counter + 1)) s s' := by
  obtain ⟨A, Q, hok⟩ := reach_ok hr
  obtain ⟨ids, w1, A1, h1, h2, h3, h4, h5, h6⟩ := hok.tick.deleteAnyCollect w.counter ks
  have hal : ∀ e ∈ order ids, w.ents.isAlive e = true := by
    intro e he
    obtain ⟨k, _, hk⟩ := (h5 e).1 ((ho ids e).1 he)
    cases hv : look A k e with
    | none => exact absurd hv hk
    | some v => exact hok.look_alive hv
  obtain ⟨w', A', Q', g1, _⟩ := h4.deleteEntities (es := order ids) (fun e he => hok.ent.valid (hal e he))
  refine ⟨order ids, w', ?_, hon ids, fun e he => ?_, fun k s hk => ?_⟩
  · simp only [World.deleteAny, h1, bind, Except.bind]; exact g1
  · rw [ho, h5]
    constructor
    · rintro ⟨k, hk, hl⟩
      cases hv : look A k e with
      | none => exact absurd hv hl
      | some v => exact ⟨k, hk, v, by rw [hok.get k he, hv]⟩
    · rintro ⟨k, hk, v, hg⟩
      rw [hok.get k he] at hg
      injection hg with hg
      exact ⟨k, hk, by rw [hg]; exact fun h => by cases h⟩
  · obtain ⟨s1, k1, k2⟩ := deleteAnyCollect_each h1 hn k s hk
    obtain ⟨s', k3, k4⟩ := deleteEntities_each (order ids) h4 (fun e he => by rw [h2]; exact hal e he) (hon ids) g1 k s1 k1
    refine ⟨s', k3, ?_⟩
    have hc : w1.counter = w.counter + 1 := h3
    rw [hc] at k4
    by_cases hm : k ∈ ks
    · rw [if_pos hm] at k2 ⊢
      obtain ⟨rows, k5⟩ := hok.emptied hk k2
      refine ⟨rows, WSpec.Emptied.afterEach k4 k5 fun x hx => ?_⟩
      exact (hok.ent.valid (hal x.1 (List.fst_mem_of_mem_zipIdx hx))).1
    · rw [if_neg hm] at k2 ⊢
      rw [← k2]
      exact k4

/-- What a copy does to the records of the world it goes to. -/
def WSpec.Copied (fl : Flags) (cl : Nat → V → V) (src dst : EId) (w o o' : World V) : Prop :=
  (∀ k s v, lookupK w.stos k = some s → s.canClone = true → s.get src = .ok (some v) →
    ∃ t', lookupK o'.stos k = some t' ∧ Gained dst (cl k v) o.counter (o.stoOr fl k) t') ∧
  (∀ k s, lookupK w.stos k = some s → (s.canClone = false ∨ s.get src = .ok none) → lookupK o'.stos k = lookupK o.stos k) ∧
  ∀ k, lookupK w.stos k = none → lookupK o'.stos k = lookupK o.stos k

theorem copied_of {w o o1 o' : World V} {A B : Nat → Option (StoSpec.Sto V)} {Q Q2 : List Nat} {I I2 : List EId} {cl : Nat → V → V}
    (h : Ok w A Q I) (ho : Ok o1 B Q2 I2) (hso : o1.stos = o.stos) {src dst : EId} (hd : o1.ents.isAlive dst = true)
    (hm : cloneCompLoop fl cl src dst o.counter w.stos o1 = .ok o') : WSpec.Copied fl cl src dst w o o' := by
  obtain ⟨g1, g2⟩ := cloneCompLoop_each hm h.nodup
  have hor : ∀ k, o1.stoOr fl k = o.stoOr fl k := fun k => stoOr_eq (by rw [hso])
  refine ⟨fun k s v hk hc hv => ?_, fun k s hk hc => ?_, fun k hk => by rw [g1 k hk, hso]⟩
  · obtain ⟨c, h1, _, h4⟩ := g2 k s hk
    unfold cloneOf at h1
    rw [if_pos hc] at h1
    simp only [hv, bind, Except.bind] at h1
    cases h1
    obtain ⟨r, t, h6, h7⟩ := h4 _ rfl
    have h8 := ho.gained hd h6
    rw [hor] at h8
    exact ⟨t, h7, h8⟩
  · obtain ⟨c, h1, h3, _⟩ := g2 k s hk
    have hcn : c = none := by
      unfold cloneOf at h1
      rcases hc with hc | hc
      · rw [if_neg (by simp [hc])] at h1; cases h1; rfl
      · split at h1
        · simp only [hc, bind, Except.bind] at h1; cases h1; rfl
        · cases h1; rfl
    rw [h3 hcn, hso]

/-- C95 for `clone_components_to`: insertions or modifications there; nothing changes here (the source is not even given back). -/
theorem C95_clone_components_to {w o : World V} {h ho : List Event} (hr : Reach fl w h) (hro : Reach fl o ho) {src dst : EId}
    (hs : w.isAlive src = true) (hd : o.isAlive dst = true) (cl : Nat → V → V) :
    ∃ o', w.cloneComponentsTo fl cl o src dst = .ok (.returned, o') ∧ WSpec.Copied fl cl src dst w o o' := by
  obtain ⟨A, Q, hok⟩ := reach_ok hr
  obtain ⟨B, Q2, hoko⟩ := reach_ok hro
  have hs' : w.ents.isAlive src = true := hs
  have hd' : o.ents.isAlive dst = true := hd
  obtain ⟨o', B', h1, _⟩ := hok.cloneComponentsTo (fl := fl) hoko hs' hd' cl
  refine ⟨o', h1, ?_⟩
  unfold World.cloneComponentsTo at h1
  rw [if_pos hs', if_pos hd'] at h1
  simp only [bind, Except.bind] at h1
  split at h1
  · cases h1
  rename_i o2 hx
  cases h1
  exact copied_of (o := o) hok hoko.tick rfl hd' hx

/-- C95 for `clone_entity_to`. -/
theorem C95_clone_entity_to {w o : World V} {h ho : List Event} (hr : Reach fl w h) (hro : Reach fl o ho) {e : EId}
    (he : w.isAlive e = true) (hfree : FreeFor o e) {o1 : World V} (hs : o.spawn e = .ok (true, o1)) (hfit : Fits o1)
    (cl : Nat → V → V) :
    ∃ o', w.cloneEntityTo fl cl o e = .ok (.returned, o') ∧ WSpec.Copied fl cl e e w o o' := by
  obtain ⟨A, Q, hok⟩ := reach_ok hr
  obtain ⟨B, Q2, hoko⟩ := reach_ok hro
  have he' : w.ents.isAlive e = true := he
  unfold World.spawn at hs
  simp only [bind, Except.bind] at hs
  split at hs
  · cases hs
  rename_i y hy
  obtain ⟨b, entsO⟩ := y
  cases hs
  obtain ⟨o', B', Q2', h1, _⟩ := hok.cloneEntityTo (fl := fl) hoko he' cl hfree hy hfit
  refine ⟨o', h1, ?_⟩
  obtain ⟨Q3, s1, s2, _⟩ := hoko.spawn (hok.ent.valid he') hfree hy hfit
  unfold World.cloneEntityTo at h1
  rw [if_pos he', hy] at h1
  simp only [bind, Except.bind, if_true] at h1
  split at h1
  · cases h1
  rename_i o2 hx
  cases h1
  exact copied_of (o := o) hok s1.tick rfl ((s2 rfl e).2 (.inr rfl)) hx

/-! ## What a view then reports -/
open Tracking

/-- C95, in terms of what the views report: a deletion is one more item of `deleted`, a removal one more item of `removed`, and nothing
else of the kind. -/
theorem C95_view_logs {v : View V} {e : EId} {now : Nat} {s' : SparseSet V} :
    (Deleted e now v.set s' →
      ({ v with set := s' } : View V).deleted = v.deleted ++
        whenOn (v.set.trkDel && isWithin now v.lastRemovalOrDeletion v.current) ((had v.set e).map fun x => (e, x)) ∧
      ({ v with set := s' } : View V).removed = v.removed) ∧
    (Removed e now v.set s' →
      ({ v with set := s' } : View V).removed = v.removed ++
        whenOn (v.set.trkRem && isWithin now v.lastRemovalOrDeletion v.current) ((had v.set e).map fun _ => e) ∧
      ({ v with set := s' } : View V).deleted = v.deleted) := by
  refine ⟨fun h => ⟨?_, ?_⟩, fun h => ⟨?_, ?_⟩⟩
  · unfold View.deleted
    rw [show ({ v with set := s' } : View V).set.deletionData = s'.deletionData from rfl, h.deleted, List.filterMap_append]
    congr 1
    unfold whenOn
    generalize had v.set e = l
    cases v.set.trkDel
    · simp
    · by_cases hw : isWithin now v.lastRemovalOrDeletion v.current = true <;>
        induction l with
        | nil => simp [hw]
        | cons x l ih => simp_all
  · unfold View.removed
    rw [show ({ v with set := s' } : View V).set.removalData = s'.removalData from rfl, h.removed]
  · unfold View.removed
    rw [show ({ v with set := s' } : View V).set.removalData = s'.removalData from rfl, h.removed, List.filterMap_append]
    congr 1
    unfold whenOn
    generalize had v.set e = l
    cases v.set.trkRem
    · simp
    · by_cases hw : isWithin now v.lastRemovalOrDeletion v.current = true <;>
        induction l with
        | nil => simp [hw]
        | cons x l ih => simp_all
  · unfold View.deleted
    rw [show ({ v with set := s' } : View V).set.deletionData = s'.deletionData from rfl, h.deleted]

/-- The flags of a view, from what the storage shows. -/
theorem flags_of_observe {v : View V} {e : EId} {x : V} {i m : Option Nat} (h : v.set.observe e = .ok (some (x, i, m))) :
    (∀ t, i = some t → v.isInserted e = .ok (isWithin t v.lastInsertion v.current)) ∧
    ∀ t, m = some t → v.isModified e = .ok (isWithin t v.lastModification v.current) := by
  unfold SparseSet.observe at h
  unfold View.isInserted View.isModified View.flag
  simp only [bind, Except.bind] at h ⊢
  split at h
  · cases h
  split at h
  · cases h
  split at h
  · cases h
  injection h with h
  injection h with h
  injection h with _ h
  injection h with h1 h2
  refine ⟨fun t ht => ?_, fun t ht => ?_⟩
  · dsimp only; rw [h1, ht]
  · dsimp only; rw [h2, ht]

theorem flags_of_gone {v : View V} {e : EId} (h : v.set.observe e = .ok none) :
    v.isInserted e = .ok false ∧ v.isModified e = .ok false := by
  unfold SparseSet.observe at h
  unfold View.isInserted View.isModified
  simp only [bind, Except.bind] at h ⊢
  split at h
  · cases h
  split at h
  · exact ⟨rfl, rfl⟩
  · split at h <;> cases h

/-- C95, the flags: a new component is inserted and not modified, a replaced one is modified and inserted only if it was, for the views
whose window holds the time of the call. -/
theorem C95_view_flags {v : View V} {e : EId} {x : V} {now : Nat} {s' : SparseSet V} (h : Gained e x now v.set s') :
    (v.set.observe e = .ok none → v.set.trkIns = true →
      ({ v with set := s' } : View V).isInserted e = .ok (isWithin now v.lastInsertion v.current)) ∧
    (v.set.observe e = .ok none → v.set.trkMod = true → ({ v with set := s' } : View V).isModified e = .ok false) ∧
    (∀ x0 i m, v.set.observe e = .ok (some (x0, i, m)) → v.set.trkMod = true →
      ({ v with set := s' } : View V).isModified e = .ok (isWithin now v.lastModification v.current)) ∧
    ∀ x0 i m, v.set.observe e = .ok (some (x0, some i, m)) → ({ v with set := s' } : View V).isInserted e = v.isInserted e := by
  refine ⟨fun hn ht => ?_, fun hn ht => ?_, fun x0 i m hn ht => ?_, fun x0 i m hn => ?_⟩
  · exact (flags_of_observe (v := { v with set := s' }) (h.new hn)).1 now (by rw [ht]; rfl)
  · rw [(flags_of_observe (v := { v with set := s' }) (h.new hn)).2 0 (by rw [ht]; rfl)]
    simp [isWithin]
  · exact (flags_of_observe (v := { v with set := s' }) (h.replaced x0 i m hn)).2 now (by rw [ht]; rfl)
  · rw [(flags_of_observe (v := { v with set := s' }) (h.replaced x0 _ m hn)).1 i rfl, (flags_of_observe hn).1 i rfl]

/-- C95: after a deletion or removal nothing is flagged. -/
theorem C95_view_gone {v : View V} {e : EId} {now : Nat} {s' : SparseSet V} (h : Deleted e now v.set s' ∨ Removed e now v.set s') :
    ({ v with set := s' } : View V).isInserted e = .ok false ∧ ({ v with set := s' } : View V).isModified e = .ok false := by
  refine flags_of_gone (v := { v with set := s' }) ?_
  rcases h with h | h
  · exact h.gone
  · exact h.gone

/-! ## A case -/

def WSpec.demoAll : Flags := fun _ => (true, true, true, true)

/-- Entities `0` (components 10 and 20) and `1` (component 11), everything tracked. -/
def WSpec.tracked : World Nat :=
  match (World.new : World Nat).addEntity WSpec.demoAll [(0, some 10), (1, some 20)] with
  | .ok (_, _, w1) =>
    match w1.addEntity WSpec.demoAll [(0, some 11)] with
    | .ok (_, _, w2) => w2
    | .error _ => w1
  | .error _ => World.new

theorem WSpec.tracked_reach : Reach WSpec.demoAll WSpec.tracked [.added ⟨0, 0⟩, .added ⟨1, 0⟩] :=
  .addEntity (cs := [(0, some 11)]) (r := .returned)
    (.addEntity (cs := [(0, some 10), (1, some 20)]) (r := .returned) (.init false) rfl (by unfold Fits; decide))
    rfl (by unfold Fits; decide)

example : Reach WSpec.demoAll WSpec.tracked [.added ⟨0, 0⟩, .added ⟨1, 0⟩] ∧ WSpec.tracked.isAlive ⟨0, 0⟩ = true ∧
    WSpec.tracked.isAlive ⟨1, 0⟩ = true ∧ (∀ e ∈ WSpec.tracked.ents.data, e.gen < 65533) ∧
    (∃ w', WSpec.tracked.deleteEntity ⟨0, 0⟩ = .ok (true, w') ∧
      (lookupK w'.stos 0).map (·.deletionData) = some [(⟨0, 0⟩, 3, 10)] ∧
      (lookupK w'.stos 1).map (·.deletionData) = some [(⟨0, 0⟩, 3, 20)] ∧
      (lookupK w'.stos 0).map (·.removalData) = some []) ∧
    (∃ w', WSpec.tracked.addComponent WSpec.demoAll ⟨1, 0⟩ [(0, some 5), (1, some 6)] = .ok (.returned, w') ∧
      (lookupK w'.stos 0).map (·.observe ⟨1, 0⟩) = some (.ok (some (5, some 2, some 3))) ∧
      (lookupK w'.stos 1).map (·.observe ⟨1, 0⟩) = some (.ok (some (6, some 3, some 0)))) ∧
    ∃ w', WSpec.tracked.deleteAny [1] (fun l => l) = .ok w' ∧
      (lookupK w'.stos 1).map (·.deletionData) = some [(⟨0, 0⟩, 3, 20)] ∧
      (lookupK w'.stos 0).map (·.deletionData) = some [(⟨0, 0⟩, 4, 10)] :=
  ⟨WSpec.tracked_reach, rfl, rfl, by decide, ⟨_, rfl, rfl, rfl, rfl⟩, ⟨_, rfl, rfl, rfl⟩, _, rfl, rfl, rfl⟩

/-- A move between two worlds whose counters differ. -/
example : ∃ w' o', WSpec.tracked.moveComponents WSpec.demoAll (WSpec.tracked.tick) ⟨0, 0⟩ ⟨1, 0⟩ = .ok (.returned, w', o') ∧
    (lookupK w'.stos 1).map (·.removalData) = some [(⟨0, 0⟩, 3)] ∧
    (lookupK o'.stos 0).map (·.observe ⟨1, 0⟩) = some (.ok (some (10, some 2, some 4))) ∧
    (lookupK o'.stos 1).map (·.observe ⟨1, 0⟩) = some (.ok (some (20, some 4, some 0))) :=
  ⟨_, _, rfl, rfl, rfl, rfl⟩

end Verif
