import Verif.Lemmas.GetComponent
import Verif.Props.Views
import Verif.Props.BorrowViews

/-!
# C70: `World::get` and `AllStorages::get`
-/
namespace Verif.GetComp
open Borrow WSpec World
open EntSpec (Event)
variable {V : Type} {fl : Flags}

/-- C70: `world.get::<(..)>(e)` in any reachable world and any state of the borrows. It does not panic and changes
nothing of the content. On success the result is one `Ref` or `RefMut` for each type that was asked for, giving the
component of `e`, and each of them holds a borrow of its storage with the mutability asked for and one of
`AllStorages`. On an error every storage has the borrows it had before. -/
theorem C70_world_get {w : World V} {h : List Event} (hr : Reach fl w h) {e : EId} (hg : e.gen < 65535)
    (qs : List (Nat × Bool)) {st : Cells} (hok : st.Ok) (hroom : st.Room (2 * qs.length + 1)) :
    ∃ st' w' r, worldGet fl st w e qs = .ok (st', w', r) ∧ st'.Ok ∧ Reach fl w' h ∧ OnlyMade w w' ∧
      (∀ hds, r = .ok hds → Handles w' e w.counter true qs hds ∧ MoreGuards st st' (.tuple (hds.map Handle.view))) ∧
      (∀ err, r = .error err → SameGuards st st') := by
  obtain ⟨st', w', r, o, h1, h2, h3, h4, h5⟩ := worldGet_spec hg qs hr (Good.of hok hroom)
  obtain ⟨st'', o', k1, k2, k3, k4⟩ := C39_world_borrow (.views (.tuple (qs.map (reqOf w e)))) hok
    (by simp only [WReq.cost, Req.cost, cost_reqs]; exact hroom)
  rw [h4] at k1
  cases k1
  refine ⟨st', w', r, h1, k2, h3, h2, fun hds hh => ?_, fun err hh => ?_⟩
  · subst hh
    rcases h5 with ⟨h5, -⟩ | h5
    · cases h5
    · exact ⟨h5.2.1, (k4 _ h5.1).2⟩
  · subst hh
    rcases h5 with ⟨-, h5, -⟩ | h5
    · exact k3 h5
    · exact k3 h5.1

/-- C70: what an error of `world.get` means, and when there is none. `MissingComponent` names a type of which the entity
has no component. The other errors are conflicts: with what is held already, or with another part of the same
request. -/
theorem C70_world_get_error {w : World V} {h : List Event} (hr : Reach fl w h) {e : EId} (hg : e.gen < 65535)
    (qs : List (Nat × Bool)) {st st' : Cells} {w' : World V} {r : Except GetErr (List Handle)} (hok : st.Ok)
    (hroom : st.Room (2 * qs.length + 1)) (hget : worldGet fl st w e qs = .ok (st', w', r)) :
    (r = .error .allBorrow → Refuses st allCell false) ∧
    (∀ k, r = .error (.borrow k) → ∃ pre x post, qs = pre ++ (k, x) :: post ∧
      (Refuses st (cellOf k) x ∨ k ∈ pre.map Prod.fst)) ∧
    (∀ id k, r = .error (.missing id k) → id = e ∧ k ∈ qs.map Prod.fst ∧ w.get k e = .ok none) ∧
    ((∃ k ∈ qs.map Prod.fst, w.get k e = .ok none) → ∃ err, r = .error err) ∧
    (¬ Refuses st allCell false → (qs.map Prod.fst).Nodup → (∀ q ∈ qs, ¬ Refuses st (cellOf q.1) q.2) →
      (∀ q ∈ qs, w.get q.1 e ≠ .ok none) → ∃ hds, r = .ok hds) := by
  obtain ⟨st1, w1, r1, o, h1, -, -, -, h5⟩ := worldGet_spec hg qs hr (Good.of hok hroom)
  rw [hget] at h1
  cases h1
  have key : ∀ err, r = .error err →
      (err = .allBorrow ∧ Refuses st allCell false) ∨
      (∃ q ∈ qs, err = .missing e q.1 ∧ w.get q.1 e = .ok none) ∨
      (∃ pre k x post, qs = pre ++ (k, x) :: post ∧ err = .borrow k ∧ (Refuses st (cellOf k) x ∨ k ∈ pre.map Prod.fst)) := by
    intro err hh
    subst hh
    rcases h5 with ⟨h5, -, h6⟩ | ⟨-, h5 | ⟨pre, k, x, post, a1, a2, a3⟩⟩
    · cases h5; exact .inl ⟨rfl, refuses_of h6⟩
    · exact .inr (.inl h5)
    · exact .inr (.inr ⟨pre, k, x, post, a1, a2, a3.imp refuses_of id⟩)
  refine ⟨fun hh => ?_, fun k hh => ?_, fun id k hh => ?_, fun ⟨k, hk, hn⟩ => ?_, fun n1 n2 n3 n4 => ?_⟩
  · rcases key _ hh with ⟨-, h⟩ | ⟨_, -, h, -⟩ | ⟨_, _, _, _, -, h, -⟩
    · exact h
    · cases h
    · cases h
  · rcases key _ hh with ⟨h, -⟩ | ⟨_, -, h, -⟩ | ⟨pre, k', x, post, a1, h, a3⟩
    · cases h
    · cases h
    · cases h; exact ⟨pre, x, post, a1, a3⟩
  · rcases key _ hh with ⟨h, -⟩ | ⟨q, hq, h, hn⟩ | ⟨_, _, _, _, -, h, -⟩
    · cases h
    · cases h; exact ⟨rfl, List.mem_map.2 ⟨q, hq, rfl⟩, hn⟩
    · cases h
  · cases r with
    | error err => exact ⟨err, rfl⟩
    | ok hds =>
      rcases h5 with ⟨h5, -⟩ | h5
      · cases h5
      · obtain ⟨q, hq, rfl⟩ := List.mem_map.1 hk
        exact absurd hn (h5.2.2 q hq)
  · cases r with
    | ok hds => exact ⟨hds, rfl⟩
    | error err =>
      exfalso
      rcases key _ rfl with ⟨-, h⟩ | ⟨q, hq, -, hn⟩ | ⟨pre, k, x, post, a1, -, a3⟩
      · exact n1 h
      · exact n4 q hq hn
      · rcases a3 with a3 | a3
        · exact n3 (k, x) (by rw [a1]; simp) a3
        · rw [a1] at n2
          simp only [List.map_append, List.map_cons] at n2
          have := (List.nodup_append.1 n2).2.2 k a3 k (by simp)
          exact this rfl

/-- C70: `AllStorages::get` does the same without the borrow of `AllStorages`. -/
theorem C70_all_storages_get {w : World V} {h : List Event} (hr : Reach fl w h) {e : EId} (hg : e.gen < 65535)
    (qs : List (Nat × Bool)) {st : Cells} (hok : st.Ok) (hroom : st.Room (2 * qs.length)) :
    ∃ st' w' r, allStoragesGet fl st w e qs = .ok (st', w', r) ∧ st'.Ok ∧ Reach fl w' h ∧ OnlyMade w w' ∧
      (∀ hds, r = .ok hds → Handles w' e w.counter false qs hds ∧ MoreGuards st st' (.tuple (hds.map Handle.view))) ∧
      (∀ err, r = .error err → SameGuards st st' ∧
        ((∃ k ∈ qs.map Prod.fst, err = .missing e k ∧ w.get k e = .ok none) ∨
         ∃ pre k x post, qs = pre ++ (k, x) :: post ∧ err = .borrow k ∧
          (Refuses st (cellOf k) x ∨ k ∈ pre.map Prod.fst))) := by
  obtain ⟨st', w', r, o, h1, h2, h3, h4, h5⟩ := getTuple_spec hg false w.counter qs (w := w.tick) (.clock _ hr)
    (Good.of hok hroom) (fun h => by cases h)
  obtain ⟨st'', o', k1, k2, k3, k4⟩ := C39_all_storages_borrow (.tuple (qs.map (reqOf w.tick e))) hok
    (by simp only [Req.cost, cost_reqs]; exact hroom)
  rw [h4] at k1
  cases k1
  refine ⟨st', w', r, h1, k2, h3, (tick_only w).trans h2, fun hds hh => ?_, fun err hh => ?_⟩
  · subst hh
    exact ⟨h5.2.1, (k4 _ h5.1).2⟩
  · subst hh
    refine ⟨k3 h5.1, ?_⟩
    rcases h5.2 with ⟨q, hq, h, hn⟩ | ⟨pre, k, x, post, a1, a2, a3⟩
    · exact .inl ⟨q.1, List.mem_map.2 ⟨q, hq, rfl⟩, h, hn⟩
    · exact .inr ⟨pre, k, x, post, a1, a2, a3.imp refuses_of id⟩

/-- C70: dropping what `world.get` returned gives every storage the borrows it had before. -/
theorem C70_drop {w : World V} {h : List Event} (hr : Reach fl w h) {e : EId} (hg : e.gen < 65535)
    (qs : List (Nat × Bool)) {st st' : Cells} {w' : World V} {hds : List Handle} (hok : st.Ok)
    (hroom : st.Room (2 * qs.length + 1)) (hget : worldGet fl st w e qs = .ok (st', w', .ok hds)) :
    ∃ st'', dropHandles st' hds = .ok st'' ∧ st''.Ok ∧ SameGuards st st'' := by
  obtain ⟨st1, w1, r1, o, h1, -, -, h4, h5⟩ := worldGet_spec hg qs hr (Good.of hok hroom)
  rw [hget] at h1
  cases h1
  rcases h5 with ⟨h5, -⟩ | h5
  · cases h5
  · rw [h5.1] at h4
    obtain ⟨st'', d1, d2, d3⟩ := C39_drop _ hok (by simp only [WReq.cost, Req.cost, cost_reqs]; exact hroom) h4
    rw [Cells.dropView] at d1
    exact ⟨st'', d1, d2, d3⟩

/-- C70: reading through a `Ref` or a `RefMut` gives the component of the entity. -/
theorem C70_read {hd : Handle} {w : World V} {e : EId} (hf : hd.For w e) :
    ∃ c, hd.read w = .ok c ∧ w.get hd.k e = .ok (some c) := hf.read

/-- C70: writing through a `RefMut` writes the component of the entity and flags it modified at the time of `get`, as a
write through a view does. Nothing else changes, and every handle that was returned still gives the component it
gave. -/
theorem C70_write {w : World V} {h : List Event} (hr : Reach fl w h) {e : EId} (he : e ∈ EntSpec.issued h)
    {hd : Handle} (hf : hd.For w e) (v : V) :
    ∃ w', hd.write w v = .ok w' ∧ Did w w' hd.k (.wrote [(e, v)] hd.current) ∧ (∀ j, j ≠ hd.k → Untouched w w' j) ∧
      w'.ents = w.ents ∧ Reach fl w' h ∧ (∀ hd' : Handle, hd'.For w e → hd'.For w' e) ∧
      ∀ j x, x.gen < 65535 → w'.get j x = if j = hd.k ∧ x = e then .ok (some v) else w.get j x := by
  obtain ⟨c, -, hc⟩ := hf.read
  obtain ⟨s, c', h1, h2, h3⟩ := hf
  obtain ⟨s', m1, m2, m3, m4⟩ := view_write hr h1 he hc v hd.current
  obtain ⟨e1, e2, e3⟩ := write_eq h1 h2 m1
  refine ⟨_, e1, ⟨s, s', h1, by rw [put_lookup, if_pos rfl], m2⟩, fun j hj => ?_, rfl, m3, fun hd' hf' => For_put h1 e2 e3 hf', m4⟩
  unfold Untouched
  rw [put_lookup, if_neg hj]

/-- C70: `deref_mut` flags the component even when nothing is written. -/
theorem C70_touch {w : World V} {h : List Event} (hr : Reach fl w h) {e : EId} (he : e ∈ EntSpec.issued h)
    {hd : Handle} (hf : hd.For w e) :
    ∃ w' c, hd.touch w = .ok w' ∧ w.get hd.k e = .ok (some c) ∧ Did w w' hd.k (.wrote [(e, c)] hd.current) ∧
      (∀ j, j ≠ hd.k → Untouched w w' j) ∧ ∀ j x, x.gen < 65535 → w'.get j x = w.get j x := by
  obtain ⟨c, hrd, hc⟩ := hf.read
  obtain ⟨w', p1, p2, p3, -, -, -, p7⟩ := C70_write hr he hf c
  obtain ⟨s, c', h1, h2, h3⟩ := hf
  refine ⟨w', c, ?_, hc, p2, p3, fun j x hx => ?_⟩
  · unfold Handle.write at p1
    unfold Handle.read at hrd
    unfold Handle.touch
    rw [h1] at p1 hrd ⊢
    simp only [bind, Except.bind] at p1 hrd ⊢
    cases hm : setUIf s.trkMod s.modificationData hd.i hd.current with
    | error f => rw [hm] at p1; cases p1
    | ok m =>
      rw [hm] at p1
      simp only at p1 ⊢
      have hd' : s.data[hd.i]? = some c := by
        unfold vecGetU at hrd
        cases hy : s.data[hd.i]? with
        | none => rw [hy] at hrd; cases hrd
        | some y => rw [hy] at hrd; cases hrd; rfl
      have hlt := (List.getElem?_eq_some_iff.1 hd').1
      have : vecSetU s.data hd.i c = .ok s.data := by
        unfold vecSetU
        rw [if_pos hlt]
        congr 1
        apply List.ext_getElem?
        intro n
        rw [List.getElem?_set]
        by_cases hn : hd.i = n
        · subst hn; rw [if_pos rfl, if_pos hlt, hd']
        · rw [if_neg hn]
      rw [this] at p1
      exact p1
  · rw [p7 j x hx]
    by_cases hj : j = hd.k ∧ x = e
    · rw [if_pos hj, hj.1, hj.2, hc]
    · rw [if_neg hj]

/-- C70: a component written inside the closure of `RefMut::map` is not flagged: only the component changes, every
timestamp stays. -/
theorem C70_map {w : World V} {h : List Event} (hr : Reach fl w h) {e : EId} (he : e ∈ EntSpec.issued h)
    {hd : Handle} (hf : hd.For w e) (v : V) :
    ∃ w' s s', hd.map w v = .ok w' ∧ lookupK w.stos hd.k = some s ∧ lookupK w'.stos hd.k = some s' ∧
      { s' with data := s.data } = s ∧ (∀ j, j ≠ hd.k → Untouched w w' j) ∧ w'.ents = w.ents ∧ Reach fl w' h ∧
      ∀ j x, x.gen < 65535 → w'.get j x = if j = hd.k ∧ x = e then .ok (some v) else w.get j x := by
  obtain ⟨c, -, hc⟩ := hf.read
  obtain ⟨s, c', h1, h2, h3⟩ := hf
  -- writing at the time the component was last modified leaves the timestamps as they are
  obtain ⟨sx, mx, -⟩ := view_write hr h1 he hc v 0
  have hstamp : ∃ t, setUIf s.trkMod s.modificationData hd.i t = .ok s.modificationData := by
    unfold SparseSet.modify at mx
    rw [h2] at mx
    simp only [bind, Except.bind] at mx
    unfold setUIf at mx ⊢
    cases ht : s.trkMod with
    | false => exact ⟨0, by simp⟩
    | true =>
      rw [ht] at mx
      simp only [if_true] at mx ⊢
      unfold vecSetU at mx ⊢
      by_cases hlt : hd.i < s.modificationData.length
      · refine ⟨s.modificationData[hd.i], ?_⟩
        rw [if_pos hlt, List.set_getElem_self]
      · rw [if_neg hlt] at mx; cases mx
  obtain ⟨t, ht⟩ := hstamp
  obtain ⟨s', m1, m2, m3, m4⟩ := view_write hr h1 he hc v t
  have hm := m1
  unfold SparseSet.modify at hm
  rw [h2] at hm
  simp only [bind, Except.bind] at hm
  rw [ht] at hm
  simp only at hm
  rw [show vecGetU s.data hd.i = .ok c' by unfold vecGetU; rw [index_lt h2 h3]] at hm
  simp only at hm
  cases h4 : vecSetU s.data hd.i v with
  | error f => rw [h4] at hm; cases hm
  | ok d =>
    rw [h4] at hm
    cases hm
    refine ⟨w.put hd.k { s with data := d }, s, { s with data := d }, ?_, h1, ?_, rfl, ?_, rfl, m3, m4⟩
    · unfold Handle.map
      rw [h1]
      simp only [bind, Except.bind, h4]
    · rw [put_lookup, if_pos rfl]
    · intro j hj
      unfold Untouched
      rw [put_lookup, if_neg hj]

/-- The cells of `demo` with nothing held. -/
def Ex.free : Cells :=
  { cell := fun _ => Cell.new, present := fun s => s ≤ 3, owner := fun _ => none, isSync := fun _ => true, me := 0 }

theorem Ex.free_ok : Ex.free.Ok := ⟨fun _ => ⟨[], .new⟩, fun _ _ => rfl, by decide⟩

theorem Ex.free_room : Ex.free.Room 10 :=
  ⟨by decide, fun _ => by show Cell.new.shared + 10 + 1 < _; decide, fun _ => rfl, fun _ h => absurd rfl h⟩

/-- Non-vacuity: in `demo` entity 0 has both components, entity 1 only the first. -/
example : (worldGet demoFlags Ex.free demo ⟨0, 0⟩ [(0, true), (1, false)]).map (fun x => x.2.2.toOption.map (·.map fun h => (h.k, h.i, h.exclusive)))
    = .ok (some [(0, 0, true), (1, 0, false)]) := by rfl
example : (worldGet demoFlags Ex.free demo ⟨1, 0⟩ [(0, true), (1, false)]).map (fun x => match x.2.2 with | .error e => some e | .ok _ => none)
    = .ok (some (.missing ⟨1, 0⟩ 1)) := by rfl
/-- Twice the same storage, once exclusively. -/
example : (worldGet demoFlags Ex.free demo ⟨0, 0⟩ [(0, false), (0, true)]).map (fun x => match x.2.2 with | .error e => some e | .ok _ => none)
    = .ok (some (.borrow 0)) := by rfl
example : ∃ st' w' r, worldGet demoFlags Ex.free demo ⟨0, 0⟩ [(0, true), (1, false)] = .ok (st', w', r) ∧ st'.Ok := by
  obtain ⟨st', w', r, h1, h2, -⟩ := C70_world_get demo_reach (e := ⟨0, 0⟩) (by decide) [(0, true), (1, false)] Ex.free_ok
    ⟨by decide, fun _ => by show Cell.new.shared + 5 + 1 < _; decide, fun _ => rfl, fun _ h => absurd rfl h⟩
  exact ⟨st', w', r, h1, h2⟩

end Verif.GetComp
