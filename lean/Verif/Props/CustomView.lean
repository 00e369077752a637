import Verif.Lemmas.CustomView
import Verif.Props.Lend
import Verif.Props.Iter

/-!
# C91: custom views
-/
namespace Verif.Custom
open Borrow

/-- C91: `World::borrow` of any custom view (fields nested in any way, fields marked with `default`), in any state of the storages,
gives exactly what the tuple of its other fields would give: the same storages are made, the same guards are taken, and it succeeds when the
tuple does. The value holds the views of its fields, and the default values of marked fields. -/
theorem C91_borrow (t : Ty) (ht : t.Ok) {st : Cells} (hok : st.Ok) (hr : st.Room (t.req.cost + 1)) :
    ∃ st' o, worldBorrowTy st (.views t) = .ok (st', o) ∧ st'.Ok
      ∧ st.worldBorrow (.views t.req) = .ok (st', o.map Held.views)
      ∧ (o = none → SameGuards st st')
      ∧ (∀ v, o = some v → Fills t v ∧ MoreGuards st st' v.views) := by
  obtain ⟨st', o, h1, h2, h3, h4⟩ := C39_world_borrow (.views t.req) hok hr
  obtain ⟨st2, o2, a1, a2, a3⟩ := worldTy_spec (.views t) (by rw [WTy.Ok]; exact ht) (st := st) (n := 0)
    ((Good.of hok hr).mono (by simp [WTy.flat, WReq.cost]))
  have key : st.worldBorrow (.views t.req) = .ok (st2, o2.map Held.views) := by
    rw [worldBorrowTy] at a1
    unfold Cells.worldBorrow
    dsimp only
    cases hgd : st.guard allCell false with
    | error e => rw [hgd] at a1; cases a1
    | ok p =>
      obtain ⟨st1, got⟩ := p
      rw [hgd] at a1
      simp only [Except.bind] at a1 ⊢
      cases got with
      | false => rw [if_pos rfl] at a1 ⊢; cases a1; rfl
      | true =>
        rw [if_neg (by simp)] at a1 ⊢
        rw [← (borrowTy_look t ht st1 true).1, a1]
        rfl
  rw [h1] at key
  cases key
  refine ⟨st', o2, a1, h2, h1, fun h => h3 (by rw [h]; rfl), fun v hv => ?_⟩
  subst hv
  have := a3 v rfl
  rw [WFills] at this
  exact ⟨this, (h4 _ rfl).2⟩

/-- C91: it is granted exactly when its views and options, listed one after the other, can be lent one after the other; how they are
grouped in structs and tuples does not matter. -/
theorem C91_granted (t : Ty) (ht : t.Ok) {st : Cells} (hok : st.Ok) (hr : st.Room (t.req.cost + 1)) (hsync : st.isSync allCell = true)
    (hl : ∀ s x kind, Has s x kind t → s ≠ allCell) :
    ∃ st' o, worldBorrowTy st (.views t) = .ok (st', o)
      ∧ o.isSome = (decide ((st.cell allCell).exclusive = 0) && ((Lent.of st).takeAll st t.req.flat).2) := by
  obtain ⟨st', o, h1, _, h2, _⟩ := C91_borrow t ht hok hr
  obtain ⟨st2, o2, h3, h4⟩ := C39_granted (.views t.req) hok hr hsync (fun l h => by
    rw [WReq.leaves, ← borrowInfo_leaves t ht] at h
    obtain ⟨k, hk⟩ := (info_has t ht l.1 l.2).1 h
    exact hl _ _ _ hk)
  rw [h2] at h3
  cases h3
  refine ⟨st', o, h1, ?_⟩
  rw [take_flat]
  simpa [Lent.grants] using h4

/-- C91: what a custom view declares to the scheduler is exactly what it borrows: the views in fields that are not marked with
`default`. -/
theorem C91_declared (t : Ty) (ht : t.Ok) (s : Nat) (x : Bool) : (s, x) ∈ borrowInfo t ↔ ∃ kind, Has s x kind t :=
  info_has t ht s x

mutual
theorem held_leaves {all : Bool} (r : Req) {v : View} (h : Answers all r v) (s : Nat) (hs : s ≠ allCell) :
    (v.sharedOn s ≠ 0 → (s, false) ∈ r.leaves) ∧ (v.exclusiveOn s ≠ 0 → (s, true) ∈ r.leaves) := by
  match r, v, h with
  | _, _, .unit => simp [View.exclusiveOn, View.sharedOn]
  | _, _, .view t x _ _ =>
    constructor
    · intro h
      simp only [View.sharedOn, hs, false_and, if_false, Nat.add_zero] at h
      split at h
      · rename_i hc; obtain ⟨rfl, rfl⟩ := hc; simp [Req.leaves]
      · exact absurd rfl h
    · intro h
      simp only [View.exclusiveOn] at h
      split at h
      · rename_i hc; obtain ⟨rfl, rfl⟩ := hc; simp [Req.leaves]
      · exact absurd rfl h
  | _, _, .optNone _ => simp [View.exclusiveOn, View.sharedOn]
  | .opt r, _, .optSome h => simpa [View.exclusiveOn, View.sharedOn, Req.leaves] using held_leaves r h s hs
  | .tuple rs, .tuple vs, h => simpa [View.exclusiveOn, View.sharedOn, Req.leaves] using heldAll_leaves rs h s hs
theorem heldAll_leaves {all : Bool} (rs : List Req) {vs : List View} (h : Answers all (.tuple rs) (.tuple vs)) (s : Nat)
    (hs : s ≠ allCell) : (View.sharedOnAll s vs ≠ 0 → (s, false) ∈ Req.leavesAll rs)
      ∧ (View.exclusiveOnAll s vs ≠ 0 → (s, true) ∈ Req.leavesAll rs) := by
  match rs, vs, h with
  | _, _, .tupleNil => simp [View.exclusiveOnAll, View.sharedOnAll]
  | r :: rs, v :: vs, .tupleCons h h' =>
    obtain ⟨a1, a2⟩ := held_leaves r h s hs
    obtain ⟨b1, b2⟩ := heldAll_leaves rs h' s hs
    simp only [View.exclusiveOnAll, View.sharedOnAll, Req.leavesAll, List.mem_append]
    constructor
    · intro h
      by_cases h0 : v.sharedOn s = 0
      · exact .inr (b1 (by omega))
      · exact .inl (a1 h0)
    · intro h
      by_cases h0 : v.exclusiveOn s = 0
      · exact .inr (b2 (by omega))
      · exact .inl (a2 h0)
end

/-- C91: a guard that a custom view took is a declared one. -/
theorem C91_holds_declared (t : Ty) (ht : t.Ok) {st st' : Cells} {v : Held} (hok : st.Ok) (hr : st.Room (t.req.cost + 1))
    (h : worldBorrowTy st (.views t) = .ok (st', some v)) (s : Nat) (hs : s ≠ allCell) :
    ((st'.cell s).shared ≠ (st.cell s).shared → (s, false) ∈ borrowInfo t)
    ∧ ((st'.cell s).exclusive ≠ (st.cell s).exclusive → (s, true) ∈ borrowInfo t) := by
  obtain ⟨_, _, h1, _, h2, _, h3⟩ := C91_borrow t ht hok hr
  rw [h] at h1
  cases h1
  obtain ⟨_, hm⟩ := h3 v rfl
  obtain ⟨_, _, a1, _, _, a2⟩ := C39_world_borrow (.views t.req) hok hr
  rw [h2] at a1
  cases a1
  obtain ⟨ha, _⟩ := a2 _ rfl
  obtain ⟨m1, _, m3⟩ := hm s
  rw [borrowInfo_leaves t ht]
  cases ha with
  | views ha =>
    obtain ⟨l1, l2⟩ := held_leaves _ ha s hs
    exact ⟨fun h => l1 (by omega), fun h => l2 (by omega)⟩

/-- C91: a workload turns on the tracking of exactly the component views in fields that are not marked. -/
theorem C91_tracking (t : Ty) (ht : t.Ok) (s : Nat) (k : Track.Kind) : (s, k) ∈ enableTracking t ↔ ∃ x, Has s x (some k) t :=
  tracking_has t ht s k

/-- C91: a system with custom `WorldBorrow` views as parameters gets them exactly when the system with their fields as parameters gets
those, and the storages are then in the same state. Otherwise no guard is left. -/
theorem C91_system (ts : List WTy) (ht : WTy.OkAll ts) {st : Cells} (hok : st.Ok) (hr : st.Room ((WTy.flatAll ts).map WReq.cost).sum) :
    ∃ st' o, worldBorrowTys st ts = .ok (st', o) ∧ st'.Ok
      ∧ (∀ vs, o = some vs → WFillsAll ts vs ∧ st.params (WTy.flatAll ts) = .ok (st', some (partsAll ts vs))
          ∧ MoreGuards st st' (.tuple (partsAll ts vs)))
      ∧ (o = none → SameGuards st st' ∧ ∃ st'', st.params (WTy.flatAll ts) = .ok (st'', none)) := by
  have hg := (Good.of hok hr).mono (m := 0 + ((WTy.flatAll ts).map WReq.cost).sum) (by omega)
  obtain ⟨st', o, h1, h2, h3⟩ := worldTys_spec ts ht hg
  refine ⟨st', o, h1, h2.good.ok, fun vs hv => ?_, fun ho => ⟨fun s => ?_, ?_⟩⟩
  · subst hv
    refine ⟨h3 _ rfl, (h2.done _ rfl).2, fun s => ?_⟩
    have := h2.moves.shared s
    have := h2.moves.exclusive s
    have := h2.moves.reborrowed s
    simp only [Option.map_some, heldAllS, heldAllX, View.sharedOn, View.exclusiveOn] at *
    omega
  · subst ho
    have := h2.moves.shared s
    have := h2.moves.exclusive s
    have := h2.moves.reborrowed s
    simp only [Option.map_none, heldAllS, heldAllX] at *
    omega
  · subst ho
    obtain ⟨st2, o2, p1, _⟩ := params_spec _ hg
    cases o2 with
    | none => exact ⟨st2, p1⟩
    | some vs => exact absurd p1 (h2.lost rfl _ _)

/-! ## An example -/

/-- `struct { v_pos: View<Pos>, #[shipyard(default)] count: u32, inner: (ViewMut<Vel>, Option<UniqueView<Time>>) }`, storages 2, 3, 4. -/
def Ex.ty : Ty :=
  .named (.cons "v_pos".toList [] (.view 2 false true true (some .untracked))
    (.cons "count".toList [[⟨.default, none⟩]] .plain
    (.cons "inner".toList [] (.tuple [.view 3 true true true (some .modification), .opt (.view 4 false false true none)]) .nil)))

theorem Ex.ty_ok : Ex.ty.Ok := by
  simp [Ex.ty, Ty.Ok, Fields.Ok, Ty.OkAll, Clear, marked]

example : Ex.ty.req = .tuple [.view 2 false true true, .tuple [.view 3 true true true, .opt (.view 4 false false true)]] := rfl
example : borrowInfo Ex.ty = [(2, false), (3, true), (4, false)] := rfl
example : enableTracking Ex.ty = [(2, .untracked), (3, .modification)] := rfl

/-- The storage 2 of `Ex.busy` is lent exclusively: refused. -/
example : ∃ st', worldBorrowTy Ex.busy (.views Ex.ty) = .ok (st', none) ∧ SameGuards Ex.busy st' := by
  have hr : Ex.busy.Room (Ex.ty.req.cost + 1) :=
    ⟨by decide, fun s => by have := Ex.busy_room.shared s; simp [Ex.ty, Ty.req, Ty.reqs, Fields.reqs, marked, Req.cost, Req.costAll]; omega,
      Ex.busy_room.alive, fun s h => by
        have := Ex.busy_room.failed s h
        simp [Ex.ty, Ty.req, Ty.reqs, Fields.reqs, marked, Req.cost, Req.costAll]; omega⟩
  obtain ⟨st', o, h1, _, _, h3, _⟩ := C91_borrow Ex.ty Ex.ty_ok Ex.busy_ok hr
  obtain ⟨_, _, h4, h5⟩ := C91_granted Ex.ty Ex.ty_ok Ex.busy_ok hr rfl (fun s x k h => by
    have := (C91_declared Ex.ty Ex.ty_ok s x).2 ⟨k, h⟩
    simp only [Ex.ty, borrowInfo, borrowInfos, fieldInfos, isDefault, Attr.isDefault, List.any_cons, List.any_nil, Bool.or_false,
      Bool.false_eq_true, if_false, if_true, List.nil_append, List.append_nil, List.cons_append, List.mem_cons, Prod.mk.injEq,
      List.not_mem_nil, or_false] at this
    rcases this with h | h | h <;> (rw [h.1]; decide))
  rw [h1] at h4
  cases h4
  have : o = none := by
    have e : (decide ((Ex.busy.cell allCell).exclusive = 0) && ((Lent.of Ex.busy).takeAll Ex.busy Ex.ty.req.flat).2) = false := by decide +kernel
    rw [e] at h5
    cases o with
    | none => rfl
    | some v => cases h5
  subst this
  exact ⟨st', h1, h3 rfl⟩

/-- A system with `struct { views: Ex.ty, ids: EntitiesView }` and `View<Pos>`, in a world where nothing is lent. -/
def Ex.params : List WTy :=
  [.named (.cons "views".toList [] (.views Ex.ty) (.plain "n".toList [[⟨.default, none⟩]] (.cons "ids".toList [] (.views (.view 1 false false true none)) .nil))),
   .views (.view 2 false true true (some .untracked))]

def Ex.free : Cells := { Ex.busy with cell := fun _ => Cell.new }

theorem Ex.free_ok : Ex.free.Ok where
  reach := fun _ => ⟨[], .new⟩
  absent := fun _ _ => rfl
  base := by decide

theorem Ex.params_ok : WTy.OkAll Ex.params := by
  simp [Ex.params, WTy.OkAll, WTy.Ok, WFields.Ok, Ex.ty_ok, Clear, marked, Ty.Ok]

example : ∃ st' vs, worldBorrowTys Ex.free Ex.params = .ok (st', some vs) ∧ WFillsAll Ex.params vs
    ∧ Ex.free.params [.views (.tuple [.view 2 false true true, .tuple [.view 3 true true true, .opt (.view 4 false false true)]]),
        .views (.view 1 false false true), .views (.view 2 false true true)] = .ok (st', some (partsAll Ex.params vs)) := by
  obtain ⟨st', o, h1, _, h2, h3⟩ := C91_system Ex.params Ex.params_ok Ex.free_ok
    ⟨by decide +kernel, fun s => by show (0 : Nat) + _ + 1 < HIGH; decide +kernel, fun s => rfl, fun s h => by simp [Ex.free, Cell.new] at h⟩
  cases o with
  | some vs => exact ⟨st', vs, h1, (h2 vs rfl).1, (h2 vs rfl).2.1⟩
  | none =>
    exfalso
    obtain ⟨_, st'', h4⟩ := h3 rfl
    have hfl : WTy.flatAll Ex.params = [Req.tuple [.view 2 false true true, .tuple [.view 3 true true true, .opt (.view 4 false false true)]],
        Req.view 1 false false true, Req.view 2 false true true].map WReq.views := rfl
    rw [hfl] at h4
    obtain ⟨_, _, h5, h6, _⟩ := C39_granted_system [Req.tuple [.view 2 false true true, .tuple [.view 3 true true true, .opt (.view 4 false false true)]],
        Req.view 1 false false true, Req.view 2 false true true] Ex.free_ok
      ⟨by decide +kernel, fun s => by show (0 : Nat) + _ + 1 < HIGH; decide +kernel, fun s => rfl, fun s h => by simp [Ex.free, Cell.new] at h⟩ rfl rfl
      (by simp [Req.leavesAll, Req.leaves, allCell])
    rw [h4] at h5
    cases h5
    revert h6
    decide +kernel

/-! ## `IntoIter` -/

theorem trimStart_stripped {p : List Char} (hp : p ≠ []) : ∀ (fuel : Nat) (s : List Char), s.length ≤ fuel → Stripped p s (trimStart p fuel s)
  | 0, s, h => by
    have : s = [] := List.length_eq_zero_iff.1 (by omega)
    subst this
    refine ⟨⟨0, by simp [trimStart]⟩, fun h => ?_⟩
    rw [trimStart] at h
    exact hp (List.prefix_nil.1 h)
  | fuel + 1, s, h => by
    rw [trimStart]
    by_cases hs : p <+: s
    · obtain ⟨b, rfl⟩ := hs
      have hlen : p.length ≠ 0 := fun h => hp (List.length_eq_zero_iff.1 h)
      rw [if_pos (by simp [hp]), List.drop_left]
      obtain ⟨⟨n, h1⟩, h2⟩ := trimStart_stripped hp fuel b (by simp at h; omega)
      refine ⟨⟨n + 1, ?_⟩, h2⟩
      rw [List.replicate_succ, List.flatten_cons, List.append_assoc, ← h1]
    · rw [if_neg (by simp [hs])]
      exact ⟨⟨0, by simp⟩, hs⟩

theorem iterAttr_eq {a : Attr} {r q : Bool × Option (List Char)} (h : iterAttr a r = some q) :
    q.1 = (r.1 || a.any fun m => m.key = .itemFieldSkip)
    ∧ q.2 = ((a.filterMap fun m => if m.key = .itemFieldName then m.value else none).getLast?).or r.2 := by
  induction a generalizing r with
  | nil => rw [iterAttr] at h; cases h; simp
  | cons m ms ih =>
    obtain ⟨key, value⟩ := m
    cases key with
    | itemFieldSkip =>
      cases value with
      | some v => simp [iterAttr] at h
      | none =>
        rw [iterAttr] at h
        obtain ⟨h1, h2⟩ := ih h
        simp [h1, h2]
    | itemFieldName =>
      cases value with
      | none => simp [iterAttr] at h
      | some v =>
        rw [iterAttr] at h
        obtain ⟨h1, h2⟩ := ih h
        refine ⟨by simp [h1], ?_⟩
        rw [h2]
        simp only [List.filterMap_cons, if_true, List.getLast?_cons]
        cases (ms.filterMap fun m => if m.key = .itemFieldName then m.value else none).getLast? <;> rfl
    | default => simp [iterAttr] at h
    | other => simp [iterAttr] at h

theorem iterField_spec {f : IterField} {o : Option (List Char)} (hp : f.shape ≠ .notPath) (h : iterField f = some o) :
    (skips f = true ∧ o = none) ∨ (skips f = false ∧ (f.shape = .view ∨ f.shape = .viewMut) ∧ ∃ n, o = some n ∧ Named f n) := by
  unfold iterField at h
  rw [if_neg hp] at h
  have hq : ∀ q, (match f.attrs.head? with | none => some (false, none) | some a => iterAttr a (false, none)) = some q →
      q.1 = skips f ∧ q.2 = renamed f := by
    intro q hq
    unfold skips renamed
    cases ha : f.attrs.head? with
    | none => rw [ha] at hq; cases hq; exact ⟨rfl, rfl⟩
    | some a =>
      rw [ha] at hq
      obtain ⟨h1, h2⟩ := iterAttr_eq hq
      exact ⟨by simpa using h1, by rw [h2]; simp⟩
  split at h
  · cases h
  · rename_i over he
    cases h
    exact .inl ⟨(hq _ he).1.symm, rfl⟩
  · rename_i over he
    obtain ⟨h1, h2⟩ := hq _ he
    refine .inr ⟨h1.symm, ?_⟩
    dsimp only at h2
    subst h2
    split at h
    · rename_i hs
      cases h
      refine ⟨.inl hs, _, rfl, ?_⟩
      unfold Named
      cases renamed f with
      | some m => rfl
      | none => exact ⟨fun _ => trimStart_stripped (by decide) _ _ (by simp), fun h => by rw [hs] at h; cases h⟩
    · rename_i hs
      cases h
      refine ⟨.inr hs, _, rfl, ?_⟩
      unfold Named
      cases renamed f with
      | some m => rfl
      | none => exact ⟨fun h => (by rw [hs] at h; cases h), fun _ => trimStart_stripped (by decide) _ _ (Nat.le_refl _)⟩
    · cases h

theorem iterFields_spec {fs : List IterField} (hp : ∀ f ∈ fs, f.shape ≠ .notPath) {k : Nat} {l : List (Nat × List Char)}
    (h : iterFields k fs = some l) :
    l.map (·.1) = (fs.zipIdx k).filterMap (fun x => if skips x.1 then none else some x.2)
    ∧ (∀ f ∈ fs, skips f = false → f.shape = .view ∨ f.shape = .viewMut)
    ∧ ∀ p ∈ l, k ≤ p.1 ∧ ∃ f, fs[p.1 - k]? = some f ∧ Named f p.2 := by
  induction fs generalizing k l with
  | nil => rw [iterFields] at h; cases h; simp
  | cons f fs ih =>
    rw [iterFields] at h
    cases h1 : iterField f with
    | none => rw [h1] at h; cases h
    | some o =>
      rw [h1] at h
      cases h2 : iterFields (k + 1) fs with
      | none => rw [h2] at h; cases o <;> cases h
      | some l' =>
        rw [h2] at h
        obtain ⟨i1, i2, i3⟩ := ih (fun f hf => hp f (by simp [hf])) h2
        have i3' : ∀ p ∈ l', k ≤ p.1 ∧ ∃ g, (f :: fs)[p.1 - k]? = some g ∧ Named g p.2 := by
          intro p hm
          obtain ⟨a1, g, a2, a3⟩ := i3 p hm
          refine ⟨by omega, g, ?_, a3⟩
          rw [show p.1 - k = (p.1 - (k + 1)) + 1 by omega, List.getElem?_cons_succ]
          exact a2
        rw [List.zipIdx_cons]
        rcases iterField_spec (hp f (by simp)) h1 with ⟨hs, rfl⟩ | ⟨hs, hv, n, rfl, hn⟩
        · cases h
          refine ⟨by rw [List.filterMap_cons_none (by rw [if_pos hs])]; exact i1, fun g hg hgs => ?_, i3'⟩
          rcases List.mem_cons.1 hg with rfl | hg
          · rw [hs] at hgs; cases hgs
          · exact i2 g hg hgs
        · cases h
          refine ⟨by
            rw [List.filterMap_cons_some (b := k) (by rw [if_neg (by rw [hs]; simp)]), ← i1]; rfl, fun g hg hgs => ?_, fun p hm => ?_⟩
          · rcases List.mem_cons.1 hg with rfl | hg
            · exact hv
            · exact i2 g hg hgs
          · rcases List.mem_cons.1 hm with rfl | hm
            · exact ⟨Nat.le_refl _, f, by simp, hn⟩
            · exact i3' p hm

/-- C91: a struct with `#[derive(IntoIter)]` whose fields are written as paths: the fields that are iterated are exactly those that are not
skipped, in order, all of them views, each under its name. -/
theorem C91_iter_fields {fs : List IterField} (hp : ∀ f ∈ fs, f.shape ≠ .notPath) {l : List (Nat × List Char)}
    (h : expandIter fs = some l) :
    l ≠ [] ∧ (l.map (·.2)).Nodup
    ∧ l.map (·.1) = fs.zipIdx.filterMap (fun x => if skips x.1 then none else some x.2)
    ∧ (∀ f ∈ fs, skips f = false → f.shape = .view ∨ f.shape = .viewMut)
    ∧ ∀ p ∈ l, ∃ f, fs[p.1]? = some f ∧ Named f p.2 := by
  unfold expandIter at h
  split at h
  · cases h
  · rename_i l' hne he
    split at h
    · rename_i hnd
      cases h
      obtain ⟨h1, h2, h3⟩ := iterFields_spec hp he
      exact ⟨fun h => hne h, hnd, h1, h2, fun p hm => by simpa using (h3 p hm).2⟩
    · cases h
  · cases h

open Iter IterSpec StoSpec in
/-- C91: iterating a custom view yields exactly the entities that have the components of all the iterated fields, each once; the field
of the item with the name of a view is the component of that view. `ws` are the views in the fields, `st` what is in their storages. -/
theorem C91_iter {V : Type} (r : Rnd) {st : Win V → Sto V} (ws : Nat → Win V) {l : List (Nat × List Char)} (hl : l ≠ [])
    (hr : ∀ p ∈ l, Reads (ws p.1) (st (ws p.1))) :
    ∃ (it : It V) (items : List (EId × Iter.Out V)), iter r (customQry ws l) = .ok it ∧ it.fold = .ok (items.map (·.2)) ∧
      (items.map (·.1)).Nodup ∧
      ∀ e (i : List (List Char × Iter.Out V)), (e, i) ∈ items.map (fun p => (p.1, customItem l p.2)) ↔
        ∃ vs : List V, l.map (fun p => StoSpec.lookup (st (ws p.1)).rows e) = vs.map some ∧ i = (l.map (·.2)).zip (vs.map .comp) := by
  match l, hl with
  | [p], _ =>
    have hp := hr p (by simp)
    obtain ⟨it, items, h1, h2, h3, _⟩ := C29_query_partial r (q := .view (ws p.1)) (st := st) (by rw [Fine]; exact hp)
      (by rw [Sails] <;> (intros; first | trivial | (rename_i h; cases h))) rfl
    refine ⟨it, items, h1, h2, h3.1, fun e i => ?_⟩
    simp only [List.mem_map, customItem, Prod.mk.injEq]
    constructor
    · rintro ⟨⟨e', o⟩, hm, rfl, rfl⟩
      have := (h3.2 e' o).1 hm
      simp only [item, Option.map_eq_some_iff] at this
      obtain ⟨row, h4, rfl⟩ := this
      exact ⟨[row.val], by simp [← lookup_rowAt, h4], rfl⟩
    · rintro ⟨vs, h4, rfl⟩
      match vs, h4 with
      | [], h4 => simp at h4
      | _ :: _ :: _, h4 => simp at h4
      | [v], h4 =>
        simp only [List.map_cons, List.map_nil, List.cons.injEq, and_true, ← lookup_rowAt, Option.map_eq_some_iff] at h4
        obtain ⟨row, h5, rfl⟩ := h4
        exact ⟨(e, .comp row.val), (h3.2 e _).2 (by simp [item, h5]), rfl, rfl⟩
  | p :: q :: l, _ =>
    obtain ⟨it, items, h1, h2, h3, h4⟩ := C29_views_partial r (st := st) (ws := (p :: q :: l).map fun p => ws p.1) (by simp)
      (fun w hw => by
        obtain ⟨x, hx, rfl⟩ := List.mem_map.1 hw
        exact hr x hx)
    have hq : customQry ws (p :: q :: l) = .tup (((p :: q :: l).map fun p => ws p.1).map .view) := by
      rw [List.map_map]; rfl
    refine ⟨it, items, by rw [hq]; exact h1, h2, h3, fun e i => ?_⟩
    rw [List.mem_map]
    constructor
    · rintro ⟨⟨e', o⟩, hm, he⟩
      obtain ⟨vs, h5, rfl⟩ := (h4 e' o).1 hm
      simp only [Prod.mk.injEq] at he
      obtain ⟨rfl, rfl⟩ := he
      refine ⟨vs, ?_, rfl⟩
      rw [List.map_map] at h5
      exact h5
    · rintro ⟨vs, h5, rfl⟩
      refine ⟨(e, .tup (vs.map .comp)), (h4 e _).2 ⟨vs, ?_, rfl⟩, rfl⟩
      rw [List.map_map]
      exact h5

/-- `struct { v_pos: View<A>, #[shipyard(item_field_skip)] other: View<C>, #[shipyard(item_field_name = "speed")] vm_vel: ViewMut<B> }` -/
def Ex.iterFields : List IterField :=
  [⟨"v_pos".toList, [], .view⟩, ⟨"other".toList, [[⟨.itemFieldSkip, none⟩]], .view⟩,
   ⟨"vm_vel".toList, [[⟨.itemFieldName, some "speed".toList⟩]], .viewMut⟩]

example : expandIter Ex.iterFields = some [(0, "pos".toList), (2, "speed".toList)] := by decide

open Iter IterSpec in
example : ∃ (it : It Nat) (items : List (EId × Iter.Out Nat)),
    iter demoR (customQry (fun k => if k = 0 then aW else bW) [(0, "pos".toList), (2, "speed".toList)]) = .ok it
    ∧ it.fold = .ok (items.map (·.2)) :=
  have ⟨it, items, h1, h2, _⟩ := C91_iter demoR (st := demoSt) (fun k => if k = 0 then aW else bW)
    (l := [(0, "pos".toList), (2, "speed".toList)]) (by simp) (by
      intro p hp
      rcases List.mem_cons.1 hp with rfl | hp
      · exact aW_reads
      · rw [List.mem_singleton.1 hp]; exact bW_reads)
  ⟨it, items, h1, h2⟩

/-! ## What fails -/

/-- C91 fails: a field of a named struct whose type is not written as a path (here a tuple of views) is left out of the iteration without
an error, although it is not marked to be skipped; the same field in a struct without names is refused. -/
theorem C91_iter_left_out_fails : ∃ fs : List IterField, (∀ f ∈ fs, skips f = false) ∧ fs.length = 2
    ∧ expandIter fs = some [(0, "pos".toList)] :=
  ⟨[⟨"v_pos".toList, [], .view⟩, ⟨"rest".toList, [], .notPath⟩], by decide, rfl, by decide⟩

/-- C91 fails: `default` written after a word with a value in the same attribute is not seen. The field is borrowed, or the struct does
not compile. -/
theorem C91_default_after_value_fails : ∃ (t : Ty) (s : Nat), (∀ x kind, ¬ Has s x kind t) ∧ (s, false) ∈ borrowInfo t := by
  refine ⟨.named (.cons "v_pos".toList [[⟨.itemFieldName, some "pos".toList⟩, ⟨.default, none⟩]]
    (.view 2 false true true none) .nil), 2, fun x kind h => ?_, by decide⟩
  cases h with
  | named h =>
    cases h with
    | here hm _ => exact absurd hm (by decide)
    | there h => cases h

/-- C91 fails: a custom view with only `default` fields declares nothing, so that the scheduler lets it run next to a system with
`AllStoragesViewMut`, but borrowing it borrows `AllStorages` and fails then. -/
theorem C91_only_default_fails : ∃ (t : Ty) (st st' : Cells), t.Ok ∧ borrowInfo t = [] ∧ st.Ok
    ∧ (∀ s, s ≠ allCell → (st.cell s).guards = 0) ∧ worldBorrowTy st (.views t) = .ok (st', none) := by
  refine ⟨.named (.cons "n".toList [[⟨.default, none⟩]] .plain .nil),
    { Ex.busy with cell := fun s => if s = allCell then { Cell.new with word := HIGH, exclusive := 1 } else Cell.new }, _, ?_, rfl, ⟨?_, ?_, ?_⟩, ?_, rfl⟩
  · simp [Ty.Ok, Fields.Ok, Clear, marked]
  · intro s
    by_cases hs : s = allCell
    · subst hs
      exact ⟨[(.write, .guard)], .step (h := []) .new (by unfold Small; decide) rfl⟩
    · refine ⟨[], ?_⟩
      simp only [hs, if_false]
      exact .new
  · intro s hs
    have : s ≠ allCell := by rintro rfl; cases hs
    simp only [this, if_false]
  · decide
  · intro s hs
    simp only [hs, if_false]
    rfl

end Verif.Custom
