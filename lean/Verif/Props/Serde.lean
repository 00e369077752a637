import Verif.Lemmas.SerdeWorld
import Verif.Props.World
import Verif.Props.IterSteps
import Verif.Props.EntityId

/-!
# Serialization round trips (C62)

`encX` writes a document, `decX` reads one into a place: `.ok (true, _)` is `Ok(())`, `.ok (false, _)` is
`Err(_)` and `.error _` a panic. `f` is any format, `cd` any component codec that reads back what it wrote.
-/
namespace Verif.Serde
open EntSpec (Event issued)
open StoSpec (Run NoTakeover Valid Sto after)
open SparseSet (contents)
open WSpec (Reach)
open Tracking
variable {T C : Type} {fl : Flags}

/-! ## Ids -/

/-- C62, ids: in every format reading back a serialized id gives the id. -/
theorem C62_entity_id (f : Fmt) {e : EId} (h : e.WF) : decId (C := C) f (encId f e) = .ok (some e) :=
  decId_encId f h

/-- The binary form of the model is the number the code writes. -/
theorem C62_binary_form (w : Bits.Word) (h : Bits.Valid w) :
    encId (C := C) bincode (Bits.unpack w) = .num (Bits.serBinary w).toNat := by
  have h1 := Bits.unpack_eq w h
  unfold encId bincode
  simp only [Bool.false_eq_true, if_false, h1]
  congr 1
  have h3 : w.toNat % 2 ^ 48 ≠ 0 := h
  have h4 : 1 ≤ w := by
    rw [BitVec.le_def]
    show 1 ≤ w.toNat
    omega
  unfold Bits.serBinary
  rw [BitVec.toNat_sub_of_le h4]
  show _ = w.toNat - 1
  omega

example : decId (C := Nat) json (encId json ⟨10, 2⟩) = .ok (some ⟨10, 2⟩) ∧
    decId (C := Nat) bincode (encId bincode ⟨10, 2⟩) = .ok (some ⟨10, 2⟩) :=
  ⟨C62_entity_id _ (by decide), C62_entity_id _ (by decide)⟩

/-- Reading an id with an index that is too large is a panic, not an error. -/
theorem C62_malformed_id_fails : decId (C := Nat) json (.fields [("index", .num EId.INDEX_MASK), ("gen", .num 0)]) =
    .error .panic := by
  unfold json decId
  simp only [if_true]
  rw [idMap_pair (by decide) (by decide)]
  rfl

/-! ## Views -/

theorem nextsId_done {w : Iter.Win T} (hl : w.set.data.length = w.set.dense.length) : ∀ (n k : Nat),
    w.set.dense.length ≤ k →
    ∃ it', IterSpec.nextsId n ⟨.view w, ⟨w.set.dense, []⟩, true, w.set.dense.length, w.set.dense.length⟩ =
      .ok ((List.range' k n).map (fun i => (w.set.contents[i]?).map fun x => (x.1, Iter.Out.comp x.2)), it')
  | 0, k, _ => ⟨_, rfl⟩
  | n + 1, k, hk => by
    obtain ⟨it', hi⟩ := nextsId_done hl n (k + 1) (by omega)
    refine ⟨it', ?_⟩
    have hc : w.set.contents[k]? = none := by
      unfold contents; apply List.getElem?_eq_none; rw [List.length_zip]; omega
    rw [List.range'_succ, List.map_cons, hc]
    unfold IterSpec.nextsId Iter.It.nextId Iter.It.next
    have hfuel : ∃ m, Iter.It.fuel (⟨.view w, ⟨w.set.dense, []⟩, true, w.set.dense.length, w.set.dense.length⟩ :
      Iter.It T) = m + 1 := ⟨_, rfl⟩
    obtain ⟨m, hm⟩ := hfuel
    rw [hm]
    unfold Iter.It.nextF
    simp only [Iter.It.refill, if_true, Iter.Acc.nextSlice, List.getLast?_nil, hi, Except.map]
    rfl

/-- Iterating over one view with the ids, which is what the serializer does, yields the two columns side by
side. -/
theorem nextsId_view {w : Iter.Win T} (hl : w.set.data.length = w.set.dense.length) : ∀ (n k : Nat),
    k ≤ w.set.dense.length →
    ∃ it', IterSpec.nextsId n ⟨.view w, ⟨w.set.dense, []⟩, true, k, w.set.dense.length⟩ =
      .ok ((List.range' k n).map (fun i => (w.set.contents[i]?).map fun x => (x.1, Iter.Out.comp x.2)), it')
  | 0, k, _ => ⟨_, rfl⟩
  | n + 1, k, hk => by
    rw [List.range'_succ, List.map_cons]
    unfold IterSpec.nextsId Iter.It.nextId Iter.It.next
    have hfuel : ∃ m, Iter.It.fuel (⟨.view w, ⟨w.set.dense, []⟩, true, k, w.set.dense.length⟩ : Iter.It T) = m + 1 :=
      ⟨_, rfl⟩
    obtain ⟨m, hm⟩ := hfuel
    rw [hm]
    unfold Iter.It.nextF
    rcases Nat.lt_or_ge k w.set.dense.length with hlt | hge
    · have hd : w.set.data[k]? = some (w.set.data[k]'(by omega)) := List.getElem?_eq_getElem _
      have he : w.set.dense[k]? = some (w.set.dense[k]'hlt) := List.getElem?_eq_getElem _
      have hc : w.set.contents[k]? = some (w.set.dense[k]'hlt, w.set.data[k]'(by omega)) := by
        unfold contents; rw [List.getElem?_zip_eq_some]; exact ⟨he, hd⟩
      obtain ⟨it', hi⟩ := nextsId_view hl n (k + 1) hlt
      refine ⟨it', ?_⟩
      simp only [Iter.It.refill, if_neg (Nat.ne_of_lt hlt), Iter.It.visit, if_true, Iter.Ship.captainData,
        Iter.Win.data, vecGetU, hd, Except.map, Iter.Acc.get, Nat.add_sub_cancel, he, hi, hc]
      rfl
    · have hk' : k = w.set.dense.length := by omega
      have hc : w.set.contents[k]? = none := by
        unfold contents; apply List.getElem?_eq_none; rw [List.length_zip]; omega
      subst hk'
      obtain ⟨it', hi⟩ := nextsId_done hl n (w.set.dense.length + 1) (Nat.le_succ _)
      refine ⟨it', ?_⟩
      simp only [Iter.It.refill, if_true, Iter.Acc.nextSlice, List.getLast?_nil, hc, hi, Except.map]
      rfl

theorem C62_with_id (r : Iter.Rnd) {a b c d : Bool} {h : List (StoSpec.Event T)} {v : Tracking.View T}
    (hr : Run (SparseSet.new a b c d) h v.set) (n : Nat) :
    ∃ it it', Iter.iter r (.view (.ofView v)) = .ok it ∧
      IterSpec.nextsId n it =
        .ok ((List.range n).map (fun i => (v.set.contents[i]?).map fun x => (x.1, Iter.Out.comp x.2)), it') := by
  obtain ⟨L, hL⟩ := SparseSet.run_abs hr
  have hl : v.set.data.length = v.set.dense.length := by rw [hL.shape]; simp [SparseSet.build]
  obtain ⟨it', h1⟩ := nextsId_view (w := .ofView v) hl n 0 (Nat.zero_le _)
  refine ⟨_, it', rfl, ?_⟩
  rw [List.range_eq_range']
  exact h1

theorem clean_run {s : SparseSet T} {a : Sto T} (hs : StoSpec.Lives s a) : ∃ L, World.AbsW s a L := by
  obtain ⟨L, hL⟩ := hs.abs
  exact ⟨L, hL, hs⟩

/-- C62, views: reading a serialized view back into a storage gives every entity the component it had in the
serialized one (`override_component`), or that one unless it already has one. With type names the format
must give structs back as maps. Missing: storages in which a component was inserted over the one of a dead
entity (`C62_view_fails`), and targets with components of other entities at the same indices. -/
theorem C62_view_partial {s t : SparseSet T} {a b : Sto T} (hs : StoSpec.Lives s a) (ht : StoSpec.Lives t b)
    (hsame : ∀ e e' v v', Valid e → Valid e' → s.get e = .ok (some v) → t.get e' = .ok (some v') →
      e.idx = e'.idx → e = e')
    (cd : Codec T C) (f : Fmt) (tn : Option String) (ov : Bool) (now : Nat)
    (hf : tn.isSome = true → f.structSeq = false) :
    ∃ t', decView cd f tn.isSome ov now (encView cd f tn s) t = .ok (true, t') ∧
      ∀ e, Valid e → ∀ vs vt, s.get e = .ok vs → t.get e = .ok vt →
        t'.get e = .ok (if ov then vs.or vt else vt.or vs) := by
  obtain ⟨L, hL⟩ := clean_run hs
  obtain ⟨M, hM⟩ := clean_run ht
  obtain ⟨t', b', M', h1, _, h3, h4, _⟩ := decView_ok hL hM cd f tn ov now hf (by
    intro x hx r hr
    have hv := (contents_mem hL).2.1 x hx
    have hg := ((contents_mem hL).2.2 x).1 hx
    have hl : StoSpec.lookup b.rows ⟨x.1.idx, r.gen⟩ = some r.val :=
      World.lookup_iff.2 ⟨r, hr, rfl, rfl⟩
    have hv' : Valid ⟨x.1.idx, r.gen⟩ := (contents_mem hM).2.1 _ (((contents_mem hM).2.2 (_, r.val)).2 hl)
    exact (congrArg EId.gen (hsame _ _ _ _ hv hv' (by rw [hL.get hv.1, hg]) (by rw [hM.get hv'.1, hl]) rfl)).symm)
  refine ⟨t', h1, fun e he vs vt hvs hvt => ?_⟩
  rw [hL.get he.1] at hvs
  rw [hM.get he.1] at hvt
  rw [h3.get he.1, h4, Except.ok.inj hvs, Except.ok.inj hvt]

/-- C62, views, into a storage that was just made: the same components, in the same order. -/
theorem C62_view_fresh_partial {s : SparseSet T} {a : Sto T} (hs : StoSpec.Lives s a) (a' b' c' d' : Bool)
    (cd : Codec T C) (f : Fmt) (tn : Option String) (ov : Bool) (now : Nat)
    (hf : tn.isSome = true → f.structSeq = false) :
    ∃ t', decView cd f tn.isSome ov now (encView cd f tn s) (SparseSet.new a' b' c' d') = .ok (true, t') ∧
      (∀ e, Valid e → t'.get e = s.get e) ∧ t'.contents = s.contents := by
  obtain ⟨L, hL⟩ := clean_run hs
  obtain ⟨t', b', M', h1, _, h3, h4, h5⟩ := decView_ok hL (World.absW_new a' b' c' d') cd f tn ov now hf
    (fun _ _ r hr => by cases hr)
  refine ⟨t', h1, fun e he => ?_, h5 fun _ => rfl⟩
  rw [h3.get he.1, hL.get he.1, h4]
  show Except.ok (if ov then (StoSpec.lookup _ e).or none else Option.or none (StoSpec.lookup _ e)) = _
  cases ov <;> simp

/-- A codec to show that the hypotheses are met. -/
def nats : Codec Nat Nat := ⟨id, some, fun _ => rfl⟩

/-- A storage with two components, one of a recycled entity. -/
theorem demo_run : ∃ (h : List (StoSpec.Event Nat)) (s : SparseSet Nat), Run (SparseSet.new true true true true) h s ∧
    NoTakeover h ∧ s.contents = [(⟨0, 0⟩, 30), (⟨5, 2⟩, 10)] := by
  have h1 := (Run.nil (s0 := (SparseSet.new true true true true : SparseSet Nat))).snoc
    (StoSpec.Step.insert (e := ⟨0, 0⟩) (v := 30) (now := 1) (by decide) rfl)
  have h2 := h1.snoc (StoSpec.Step.insert (e := ⟨5, 2⟩) (v := 10) (now := 2) (by decide) rfl)
  refine ⟨_, _, h2, ?_, rfl⟩
  intro e v now hm
  simp at hm

/-- The hypotheses of the two theorems above are met. -/
example : ∃ (h : List (StoSpec.Event Nat)) (s t' : SparseSet Nat), Run (SparseSet.new true true true true) h s ∧
    NoTakeover h ∧ decView nats json false true 7 (encView nats json none s) (SparseSet.new true true true true) =
      .ok (true, t') ∧ t'.contents = [(⟨0, 0⟩, 30), (⟨5, 2⟩, 10)] := by
  obtain ⟨h, s, h1, h2, h3⟩ := demo_run
  obtain ⟨t', g1, _, g3⟩ := C62_view_fresh_partial (.ofRun h1 h2) true true true true nats json none true 7 (fun h => by cases h)
  exact ⟨h, s, t', h1, h2, g1, by rw [g3, h3]⟩

example : ∃ t' : SparseSet Nat, decView nats json true true 7
      (.fields [("type_name", .str "u32"), ("data", .seq [.seq [.fields [("index", .num 5), ("gen", .num 2)], .comp 10]])])
      (SparseSet.new true true true true) = .ok (true, t') ∧ t'.get ⟨5, 2⟩ = .ok (some 10) :=
  ⟨_, rfl, rfl⟩

/-- C62 is false of storages in which a component was inserted over the one of a dead entity: the component
comes back under an id that never was given to the storage with it, and the entity that had it has none. -/
theorem C62_view_fails : ∃ (h : List (StoSpec.Event Nat)) (s t' : SparseSet Nat), Run (SparseSet.new true true true true) h s ∧
    s.get ⟨0, 2⟩ = .ok (some 20) ∧
    decView nats json false true 9 (encView nats json none s) (SparseSet.new true true true true) = .ok (true, t') ∧
    t'.get ⟨0, 2⟩ = .ok none ∧ t'.get ⟨0, 3⟩ = .ok (some 20) :=
  ⟨_, SparseSet.takeover, _, SparseSet.takeover_run, rfl, rfl, rfl, rfl⟩

/-- With type names bincode refuses to read what it wrote. -/
theorem C62_typed_bincode_fails (cd : Codec T C) (n : String) (ov : Bool) (now : Nat) (s t : SparseSet T) :
    decView cd bincode true ov now (encView cd bincode (some n) s) t = .ok (false, t) := rfl

/-- When reading fails, the components read before remain. -/
theorem C62_error_keeps_fails : ∃ t' : SparseSet Nat,
    decView nats bincode false true 7 (.seq [.seq [.num 3, .comp 10], .num 0]) (SparseSet.new true true true true) =
      .ok (false, t') ∧ t'.get ⟨3, 0⟩ = .ok (some 10) :=
  ⟨_, rfl, rfl⟩

/-! ## Entities and worlds -/

/-- C62, entities: reading serialized entities into an empty world makes exactly the same entities alive. -/
theorem C62_entities {w : World T} {h : List Event} (hr : Reach fl w h) (f : Fmt) (hf : f.needsLen = false) :
    ∃ (d : Doc C) (w' : World T) (h' : List Event), encEntities f w.ents = some d ∧
      deEntities f d World.new = .ok (true, w') ∧ Reach fl w' h' ∧ ∀ e, w'.isAlive e = w.isAlive e := by
  obtain ⟨o', h1, _, h3, h4⟩ := deEntities_ok (C := C) hr (Reach.init false) rfl f
  exact ⟨_, o', _, by unfold encEntities; rw [hf]; rfl, h1, h3, h4⟩

/-- C62, entities: what is not a list is refused, and nothing is restored then. -/
theorem C62_entities_refused (f : Fmt) (d : Doc C) (hd : ∀ ds, d ≠ .seq ds) (s : Entities) : decEntities f d s = .ok (false, s) := by
  unfold decEntities
  split
  · exact absurd rfl (hd _)
  · rfl

/-- C62, entities: a list is refused at the first item that is not an id; the ids before it were restored, and stay. -/
theorem C62_entities_stopped (f : Fmt) (xs : List EId) (hx : ∀ e ∈ xs, e.WF) (d : Doc C) (hd : decId f d = .ok none) (rest : List (Doc C))
    (s s' : Entities) (hs : decEntities (C := C) f (.seq (xs.map (encId f))) s = .ok (true, s')) :
    decEntities f (.seq (xs.map (encId f) ++ d :: rest)) s = .ok (false, s') := by
  unfold decEntities at hs ⊢
  simp only at hs ⊢
  induction xs generalizing s with
  | nil =>
    unfold spawnSeq at hs
    cases (Prod.mk.inj (Except.ok.inj hs)).2
    simp only [List.map_nil, List.nil_append]
    unfold spawnSeq
    simp only [hd, bind, Except.bind]
  | cons e xs ih =>
    have hdec := decId_encId (C := C) f (hx e (.head _))
    simp only [List.map_cons, List.cons_append] at hs ⊢
    unfold spawnSeq at hs ⊢
    simp only [hdec, bind, Except.bind] at hs ⊢
    cases hsp : s.spawn e with
    | error x => rw [hsp] at hs; cases hs
    | ok r =>
      rw [hsp] at hs
      exact ih (fun e he => hx e (.tail _ he)) r.2 hs

/-- Formats that need the length of a sequence cannot serialize entities. -/
theorem C62_entities_bincode_fails (s : Entities) : encEntities (C := C) bincode s = none := rfl

/-- C62, worlds: a snapshot of the entities and of the component types `ks` restores exactly that: the same
entities are alive and have the same components of the types `ks`. The restored world is again one that the
API can make. -/
theorem C62_world {w : World T} {h : List Event} (hr : Reach fl w h) (cd : Codec T C) (f : Fmt)
    (hf : f.needsLen = false) (ks : List Nat) :
    ∃ x w' h', save fl cd f w ks = some x ∧ load fl cd f x World.new = .ok (true, w') ∧ Reach fl w' h' ∧
      (∀ e, w'.isAlive e = w.isAlive e) ∧
      ∀ k e, e.gen < 65535 → w'.get k e = if k ∈ ks then w.get k e else .ok none := by
  obtain ⟨o', h1, h2, h3, h4⟩ := deEntities_ok (C := C) hr (Reach.init false) rfl f
  obtain ⟨w2, g1, g2, g3, g4⟩ := loadViews_ok hr cd f ks h3 h4
  refine ⟨(.seq (w.ents.iter.map (encId f)), ks.map fun k => (k, serView fl cd f w k)), w2, _, ?_, ?_, g2, g3, ?_⟩
  · unfold save encEntities; rw [hf]; rfl
  · simp only [load, bind, Except.bind]
    rw [show deEntities f (.seq (w.ents.iter.map (encId f))) World.new = .ok (true, o') from h1]
    exact g1
  · intro k e he
    obtain ⟨A, Q, hok⟩ := World.reach_ok hr
    have ho : o'.get k e = .ok none := by unfold World.get; rw [h2]; rfl
    have hw := hok.get k he
    rw [g4 k e he _ _ hw ho, hw]
    split <;> simp

example : ∃ x w', save WSpec.demoFlags nats json WSpec.demo [0, 1] = some x ∧
    load WSpec.demoFlags nats json x World.new = .ok (true, w') ∧ w'.isAlive ⟨2, 0⟩ = true ∧
    w'.get 0 ⟨0, 0⟩ = .ok (some 10) ∧ w'.get 1 ⟨2, 0⟩ = .ok (some 22) :=
  ⟨_, _, rfl, rfl, rfl, rfl, rfl⟩

/-- A restored world does not know which ids were handed out before: it hands them out again. -/
theorem C62_stale_id_fails : ∃ (w : World Nat) (h : List Event) (e : EId) (x : Doc Nat × List (Nat × Doc Nat))
    (w' w2 : World Nat), Reach WSpec.demoFlags w h ∧ e ∈ issued h ∧ w.isAlive e = false ∧
    save WSpec.demoFlags nats json w [] = some x ∧ load WSpec.demoFlags nats json x World.new = .ok (true, w') ∧
    w'.addEntity WSpec.demoFlags [] = .ok (e, .returned, w2) := by
  have h1 : Reach WSpec.demoFlags (_ : World Nat) _ :=
    .addEntity (cs := []) (e := ⟨0, 0⟩) (r := .returned) (.init false) rfl (by unfold WSpec.Fits; decide)
  have h2 := h1.deleteEntity (e := ⟨0, 0⟩) (b := true) (by decide) rfl
  exact ⟨_, _, ⟨0, 0⟩, _, _, _, h2, by decide, rfl, rfl, rfl, rfl⟩

/-! ## Uniques -/

/-- C62, uniques: the value read back is the value written. -/
theorem C62_unique (cd : Codec T C) (v u : UniqueView T) :
    (∃ u', decUnique cd (encUnique cd v) u = (true, u') ∧ u'.read = v.read) ∧
    (∃ u', decUniqueOrDefault cd (encUnique cd v) u = (true, u') ∧ u'.read = v.read) ∧
    (∃ u', decUniqueOrInit cd (encUniqueOrInit cd (some v)) (some u) = (true, some u') ∧ u'.read = v.read) := by
  refine ⟨⟨{ u with unique := { u.unique with value := v.read } }, ?_, rfl⟩, ⟨u.write v.read, ?_, rfl⟩,
    ⟨u.write v.read, ?_, rfl⟩⟩
  · simp only [decUnique, encUnique, decComp, cd.ok]
  · simp only [decUniqueOrDefault, encUnique, decComp, cd.ok]
  · simp only [decUniqueOrInit, encUniqueOrInit, encUnique, decComp, cd.ok, Option.map]

/-- C62, uniques: what is not the value of a unique is refused, and the value stays. `UniqueOrInitViewMut` accepts a
missing value, and then changes nothing. -/
theorem C62_unique_refused (cd : Codec T C) {d : Doc C} (hd : ∀ c, d = .comp c → cd.dec c = none) (u : UniqueView T)
    (o : Option (UniqueView T)) :
    decUnique cd d u = (false, u) ∧
    (∃ u', decUniqueOrDefault cd d u = (false, u') ∧ u'.read = u.read) ∧
    decUniqueOrInit cd (.some d) o = (false, o) ∧ decUniqueOrInit cd .none o = (true, o) ∧
    ∀ d' : Doc C, d' ≠ .none → (∀ d'', d' ≠ .some d'') → decUniqueOrInit cd d' o = (false, o) := by
  have h : decComp cd d = none := by
    cases d with
    | comp c => exact hd c rfl
    | _ => rfl
  refine ⟨by simp only [decUnique, h], ⟨u.write u.read, by simp only [decUniqueOrDefault, h], rfl⟩, ?_, rfl, ?_⟩
  · simp only [decUniqueOrInit, h]
  · intro d' h1 h2
    cases d' with
    | none => exact absurd rfl h1
    | some d'' => exact absurd rfl (h2 d'')
    | _ => rfl

example := C62_unique_refused nats (d := .seq []) (fun c h => by cases h) (.new (.new 5 1) none 3) none

/-- `UniqueOrInitViewMut`: reading back into a world without the unique succeeds and loses the value. -/
theorem C62_unique_or_init_fails (cd : Codec T C) (v : UniqueView T) :
    decUniqueOrInit cd (encUniqueOrInit cd (some v)) none = (true, none) := by
  simp only [decUniqueOrInit, encUniqueOrInit, encUnique, decComp, cd.ok, Option.map]

/-- `UniqueViewMut`: the value is replaced but the unique does not count as modified, whatever happened
before in the same window. -/
theorem C62_unique_tracking_fails (cd : Codec T C) (x : T) (v : UniqueView T) (h : v.isModified = false) :
    ∃ u', decUnique cd (encUnique cd { v with unique := { v.unique with value := x } }) v = (true, u') ∧
      u'.read = x ∧ u'.isModified = false := by
  refine ⟨{ v with unique := { v.unique with value := x } }, ?_, rfl, h⟩
  simp only [decUnique, encUnique, decComp, cd.ok, UniqueView.read]

/-- The others report it. -/
theorem C62_unique_or_default_tracking (cd : Codec T C) (d : Doc C) (v : UniqueView T)
    (h : v.lastModification < v.current) : (decUniqueOrDefault cd d v).2.isModified = true := by
  unfold decUniqueOrDefault UniqueView.isModified isWithin
  cases decComp cd d <;> simp [UniqueView.write, h]

example : ∃ v : UniqueView Nat, v.isModified = false ∧ v.lastModification < v.current :=
  ⟨.new (.new 5 1) none 3, rfl, by decide⟩

end Verif.Serde
