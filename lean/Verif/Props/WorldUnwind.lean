import Verif.Lemmas.WorldUnwindPlain
import Verif.Props.World

/-!
# Worlds in which calls were cut short by panics (C73)

`WSpec.PReach fl w I` (`Verif/Spec/WorldUnwind.lean`): `w` was made by calls of the API, some of them cut
short by a panic in a callback, a closure or a destructor, some of them leaving components to dead entities;
`I` are the ids handed out. `p` says which user code panics during the call the theorem is about: the theorems
hold for every `p`.
-/
namespace Verif
open StoSpec (Valid)
open WSpec (PReach Listed Fits Same demoFlags)
open World
variable {V : Type} {fl : Flags}

/-- An id handed out cannot reach the components of another entity that is alive. -/
theorem World.Sound.not_hit {w : World V} {A Q} {I : List EId} (h : Sound w A Q I) {e x : EId} (he : e ∈ I)
    (hx : w.ents.isAlive x = true) (hne : x ≠ e) : ¬ Hit e x := by
  rintro ⟨h1, h2⟩
  have h3 := h.ent.issued_le he hx h1
  refine hne ?_
  cases x; cases e
  simp only [EId.mk.injEq] at *
  omega

/-! ## Reading -/

/-- C73: reading a component never fails. -/
theorem C73_reads {w : World V} {I : List EId} (hr : PReach fl w I) (k : Nat) (e : EId) (he : e.gen < 65535) :
    ∃ c, w.get k e = .ok c := by
  obtain ⟨A, Q, hok⟩ := preach_ok hr
  exact ⟨_, hok.get k he⟩

/-- C73: only ids that were handed out are alive, or have components. -/
theorem C73_handed_out {w : World V} {I : List EId} (hr : PReach fl w I) (e : EId) (he : e.gen < 65535) :
    (w.isAlive e = true → e ∈ I) ∧ ∀ k v, w.get k e = .ok (some v) → e ∈ I := by
  obtain ⟨A, Q, hok⟩ := preach_ok hr
  refine ⟨hok.alive e, ?_⟩
  intro k v hg
  rw [hok.get k he] at hg
  injection hg with hg
  refine Classical.byContradiction fun hn => ?_
  rw [hok.look_fresh k hn] at hg
  cases hg

/-! ## Adding -/

/-- C73, `add_entity`: the new entity has an id that was never handed out. It has the components listed up to
the point where user code panicked, all of them if the call returned, and no other: whatever earlier
entities left behind is not seen. The other alive entities are unchanged. -/
theorem C73_add_entity {w : World V} {I : List EId} (hr : PReach fl w I)
    (hroom : w.ents.data.length + 1 < EId.maxIndex) (p : Panics) (cs : List (Nat × Option V)) :
    ∃ e out w', w.addEntityU fl p cs = .ok (e, out, w') ∧ e ∉ I ∧ w'.isAlive e = true ∧
      (∃ pre post, cs = pre ++ post ∧ (out = .returned () → post = []) ∧
        ∀ k, w'.get k e = .ok (Listed pre k none)) ∧
      out ≠ .unwound .refused ∧
      (∀ x, x ≠ e → w'.isAlive x = w.isAlive x) ∧
      (∀ x, x ≠ e → w.isAlive x = true → Same w w' x) := by
  obtain ⟨A, Q, hok⟩ := preach_ok hr
  obtain ⟨e, s', hg, hcap⟩ := generate_total hok.ent hroom
  obtain ⟨out, w', A', Q', pre, post, h1, h2, h3, h4, h5, h6, h7, h8, h9⟩ :=
    hok.addEntityU (fl := fl) hg hcap p cs
  have hal : ∀ x, x ≠ e → w'.isAlive x = w.isAlive x := by
    intro x hx
    unfold World.isAlive
    cases hb' : w.ents.isAlive x with
    | true => exact (h5 x).2 (.inl hb')
    | false =>
      cases hb : w'.ents.isAlive x with
      | false => rfl
      | true =>
        rcases (h5 x).1 hb with h | h
        · rw [hb'] at h; cases h
        · exact absurd h hx
  have hea : w'.isAlive e = true := (h5 e).2 (.inr rfl)
  refine ⟨e, out, w', h1, h4, hea, ⟨pre, post, h6, ?_, fun k => ?_⟩, ?_, hal, ?_⟩
  · rintro rfl
    rcases h7 with h7 | ⟨u, hu, _⟩
    · exact h7.2
    · cases hu
  · rw [h3.get k (h3.ent.valid hea).1, h8]
  · rintro rfl
    rcases h7 with h7 | ⟨u, hu, hu'⟩
    · cases h7.1
    · cases hu; rcases hu' with h | h <;> cases h
  · intro x hx hxa
    refine ⟨hal x hx, fun k => ?_⟩
    have hxa' : w'.isAlive x = true := by rw [hal x hx]; exact hxa
    have hg := (hok.ent.valid hxa).1
    rw [h3.get k hg, hok.get k hg, h9 k x (fun hi => hx (alive_same hxa' hea hi))]

/-- C73, `add_component` on an alive entity: it has its old components and those listed up to the point where
user code panicked, all of them if the call returned. The call is never refused. The others are
unchanged. On a dead entity the call is refused and nothing changes. -/
theorem C73_add_component {w : World V} {I : List EId} (hr : PReach fl w I) (p : Panics) (e : EId)
    (cs : List (Nat × Option V)) :
    ∃ out w', w.addComponentU fl p e cs = .ok (out, w') ∧
      (∀ x, w'.isAlive x = w.isAlive x) ∧
      (w.isAlive e = true → ∃ pre post, cs = pre ++ post ∧ (out = .returned () → post = []) ∧
        ∀ k old, w.get k e = .ok old → w'.get k e = .ok (Listed pre k old)) ∧
      (out = .unwound .refused ↔ w.isAlive e = false) ∧
      (w.isAlive e = false → w' = w.tick) ∧
      (∀ x, x ≠ e → w.isAlive x = true → Same w w' x) := by
  obtain ⟨A, Q, hok⟩ := preach_ok hr
  cases ha : w.isAlive e with
  | false =>
    refine ⟨.unwound .refused, w.tick, ?_, fun _ => rfl, (fun h => by cases h), ⟨fun _ => rfl, fun _ => rfl⟩,
      fun _ => rfl, fun _ _ _ => ⟨rfl, fun _ => rfl⟩⟩
    unfold World.addComponentU
    rw [if_neg (by rw [show w.ents.isAlive e = false from ha]; decide)]
  | true =>
    have ha' : w.ents.isAlive e = true := ha
    have hv := (hok.ent.valid ha').1
    obtain ⟨out, w', A', pre, post, h1, h2, _, h4, h5, h6, h7, h8⟩ :=
      hok.tick.addAllU (fl := fl) (e := e) ha' p w.counter 0 cs
    refine ⟨out, w', ?_, ?_, fun _ => ⟨pre, post, h5, ?_, ?_⟩, ⟨?_, (fun h => by cases h)⟩,
      (fun h => by cases h), ?_⟩
    · unfold World.addComponentU
      rw [if_pos ha']; exact h1
    · intro x; unfold World.isAlive; rw [h2]; rfl
    · rintro rfl
      rcases h6 with h6 | ⟨u, hu, _⟩
      · exact h6.2
      · cases hu
    · intro k old ho
      rw [hok.get k hv] at ho
      injection ho with ho
      rw [h4.get k hv, h7, ho]
    · rintro rfl
      rcases h6 with h6 | ⟨u, hu, hu'⟩
      · cases h6.1
      · cases hu; rcases hu' with h | h <;> cases h
    · intro x hx hxa
      refine ⟨by unfold World.isAlive; rw [h2]; rfl, fun k => ?_⟩
      have hg := (hok.ent.valid hxa).1
      rw [h4.get k hg, hok.get k hg, h8 k x (fun hi => hx (alive_same hxa ha' hi))]

/-- C73, `bulk_add_entity`: new ids, each entity with exactly its tuple, whatever was left behind. The others,
dead or alive, are unchanged. -/
theorem C73_bulk_add_entity {w : World V} {I : List EId} (hr : PReach fl w I)
    {cols : List (Nat × List V)} {n : Nat} (hn : 0 < n) (hlen : ∀ c ∈ cols, c.2.length = n)
    (hnd : (cols.map Prod.fst).Nodup) (hroom : w.ents.data.length + n < EId.maxIndex) :
    ∃ es w', w.bulkAddEntity fl cols n = .ok (es, w') ∧ es.length = n ∧ es.Nodup ∧ (∀ e ∈ es, e ∉ I) ∧
      (∀ x, w'.isAlive x = true ↔ w.isAlive x = true ∨ x ∈ es) ∧
      (∀ (i : Nat) e, es[i]? = some e → ∀ k,
        w'.get k e = .ok ((lookupK cols k).bind fun vs => vs[i]?)) ∧
      (∀ x, x ∉ es → x.gen < 65535 → ∀ k, w'.get k x = w.get k x) := by
  obtain ⟨A, Q, hok⟩ := preach_ok hr
  obtain ⟨es, w', A', Q', h1, h2, h3, h4, h5, h6⟩ := hok.bulkAddEntity (fl := fl) hn hlen hnd hroom
  refine ⟨es, w', h1, by rw [h2]; simp, ?_, h5, h4, ?_, ?_⟩
  · rw [h2]
    refine List.pairwise_map.2 (List.nodup_range.imp ?_)
    intro i j hij h
    simp only [EId.mk.injEq, and_true] at h
    omega
  · intro i e hi k
    have hm : e ∈ es := List.mem_of_getElem? hi
    rw [h2] at hi
    simp only [List.getElem?_map, Option.map_eq_some_iff] at hi
    obtain ⟨j, hj, rfl⟩ := hi
    obtain ⟨hj1, hj2⟩ := List.getElem?_eq_some_iff.1 hj
    simp only [List.getElem_range] at hj2
    subst hj2
    rw [h3.get k (by simp only; omega), h6, hok.look_fresh k (h5 _ hm)]
    unfold colAt
    cases lookupK cols k with
    | none => rfl
    | some vs => simp
  · intro x hx hxg k
    rw [h3.get k hxg, hok.get k hxg, h6]
    have : colAt cols w.ents.data.length k x = none := by
      unfold colAt
      cases hl : lookupK cols k with
      | none => rfl
      | some vs =>
        simp only [Option.bind]
        split
        · rename_i hc
          have hvl := hlen _ (lookupK_mem hl)
          refine List.getElem?_eq_none (Nat.le_of_not_lt fun hlt => hx ?_)
          rw [h2]
          refine List.mem_map.2 ⟨x.idx - w.ents.data.length, List.mem_range.2 (hvl ▸ hlt), ?_⟩
          cases x
          simp only [EId.mk.injEq] at *
          omega
        · rfl
    rw [this]; rfl

/-- C73, `spawn`: when it returns `true` the entity is alive and, if its id had not been handed out, has no
component; the entity that was at that index is not alive any more; the others are unchanged. -/
theorem C73_spawn {w : World V} {I : List EId} (hr : PReach fl w I) {e : EId} (hv : Valid e)
    (hroom : e.idx + 1 < EId.maxIndex) :
    ∃ b w', w.spawn e = .ok (b, w') ∧ (∀ k x, w'.get k x = w.get k x) ∧
      (b = true → (∀ x, w'.isAlive x = true ↔ (w.isAlive x = true ∧ x.idx ≠ e.idx) ∨ x = e) ∧
        (e ∉ I → ∀ k, w'.get k e = .ok none)) ∧
      (b = false → w' = w) := by
  obtain ⟨A, Q, hok⟩ := preach_ok hr
  obtain ⟨b, s', hs, hcap⟩ := spawn_total' hok.ent hv hroom
  obtain ⟨Q', h1, h2, h3⟩ := hok.spawn hv hs hcap
  refine ⟨b, { w with ents := s' }, ?_, fun _ _ => rfl, fun hb => ⟨h2 hb, ?_⟩, fun hb => ?_⟩
  · simp only [World.spawn, hs, bind, Except.bind]
  · intro hn k
    rw [h1.get k hv.1, hok.look_fresh k hn]
  · rw [h3 hb]

/-- C73, an insertion through a view for an id handed out, dead or alive, cut short or not: an alive entity
has the new component when the call returned, and otherwise what it had. The other alive entities are
unchanged, whatever the id. -/
theorem C73_view_insert {w : World V} {I : List EId} (hr : PReach fl w I) {k : Nat} {s : SparseSet V}
    (hk : lookupK w.stos k = some s) {e : EId} (he : e ∈ I) (v : V) (now : Nat) (hp dp : Bool) :
    ∃ out s', s.insertU e v now hp dp = .ok (out, s') ∧
      (w.isAlive e = true → ∀ r, out = .returned r →
        r ≠ .notInserted ∧ (w.put k s').get k e = .ok (some v)) ∧
      (∀ u, out = .unwound u → ∀ j, (w.put k s').get j e = w.get j e) ∧
      (∀ j, j ≠ k → (w.put k s').get j e = w.get j e) ∧
      (∀ x, x ≠ e → w.isAlive x = true → Same w (w.put k s') x) := by
  obtain ⟨A, Q, hok⟩ := preach_ok hr
  have hv := hok.ent.valid_issued he
  have hs := hok.sto k
  rw [hk] at hs
  generalize hA : A k = ao at hs
  cases hs with
  | @some _ a L ha =>
    obtain ⟨out, s', _, _, hi, _⟩ := insertU_tab ha hv v now hp dp
    obtain ⟨A', h1, h2, h3, h4⟩ := hok.viewAdd hk he hi
    refine ⟨out, s', hi, ?_, ?_, ?_, ?_⟩
    · intro hal r ho
      obtain ⟨k1, k2⟩ := h4 hal r ho
      exact ⟨k1, by rw [h1.get k hv.1, k2]⟩
    · intro u hu j
      rw [h1.get j hv.1, hok.get j hv.1, (h3 u hu).1]
    · intro j hj
      rw [h1.get j hv.1, hok.get j hv.1, h2 j e (.inl hj)]
    · intro x hx hxa
      refine ⟨rfl, fun j => ?_⟩
      have hg := (hok.ent.valid hxa).1
      rw [h1.get j hg, hok.get j hg, h2 j x (.inr ?_)]
      by_cases hi : x.idx = e.idx
      · have := hok.ent.issued_le he hxa hi
        have hne : x.gen ≠ e.gen := by
          intro h; apply hx; cases x; cases e; simp only [EId.mk.injEq] at *; exact ⟨hi, h⟩
        exact .inr (by omega)
      · exact .inl hi

/-! ## Deleting -/

/-- C73, `delete_entity`, cut short or not: the entity is dead, the others are as alive as before, and the
alive ones keep their components. The storages `pre` were visited, there the entity has nothing left; the
rest is untouched: all were visited if the call returned. With a dead id the call returns `false` and
changes nothing. Missing: generations 65533 and 65534, see `C40_exhausted_fails`; a call that was cut short
leaves components behind, see `C73_orphan_fails`. -/
theorem C73_delete_entity_partial {w : World V} {I : List EId} (hr : PReach fl w I) (hp : Bool) (p : Panics)
    (e : EId) (hg : e.gen < 65533) :
    ∃ out w', w.deleteEntityU hp p e = .ok (out, w') ∧
      w'.isAlive e = false ∧
      (∃ pre post, w.stos.map Prod.fst = pre ++ post ∧ (out = .returned true → post = []) ∧
        (∀ k, w'.get k e = if k ∈ pre then .ok none else w.get k e)) ∧
      (out = .returned false ↔ w.isAlive e = false) ∧
      (w.isAlive e = false → w' = w) ∧
      (∀ x, x ≠ e → w'.isAlive x = w.isAlive x) ∧
      (∀ x, x ≠ e → w.isAlive x = true → Same w w' x) := by
  obtain ⟨A, Q, hok⟩ := preach_ok hr
  obtain ⟨out, w', A', Q', pre, post, h1, h2, h3, h4, h5, h6, h7, h8, h9⟩ := hok.deleteEntityU e hp p
  refine ⟨out, w', h1, h4 hg, ⟨pre, post, h7, h8, ?_⟩, ⟨?_, fun ha => (h5 ha).1⟩, fun ha => (h5 ha).2.1, h3, ?_⟩
  · intro k
    rw [h2.get k (by omega), hok.get k (by omega), h9]
    by_cases hk : k ∈ pre
    · rw [if_pos hk, if_pos ⟨hk, rfl, Nat.le_refl _⟩]
    · rw [if_neg hk, if_neg (fun h => hk h.1)]
  · intro ho
    cases ha : w.isAlive e with
    | false => rfl
    | true => exact absurd ho (h6 ha)
  · intro x hx hxa
    refine ⟨h3 x hx, fun k => ?_⟩
    have hgx := (hok.ent.valid hxa).1
    rw [h2.get k hgx, hok.get k hgx, h9]
    cases ha : w.isAlive e with
    | false => rw [(h5 ha).2.2, if_neg (fun h => by cases h.1)]
    | true => rw [if_neg (fun h => hok.not_hit (hok.alive e ha) hxa hx h.2)]

/-- Once `delete_entity` has returned, the entity has no component left. -/
theorem C73_delete_entity_returned {w : World V} {I : List EId} (hr : PReach fl w I) {hp : Bool} {p : Panics}
    {e : EId} (hg : e.gen < 65533) {w' : World V} (h : w.deleteEntityU hp p e = .ok (.returned true, w'))
    (k : Nat) : w'.get k e = .ok none := by
  obtain ⟨out, w1, h1, _, ⟨pre, post, h2, h3, h4⟩, _, _, _, _⟩ := C73_delete_entity_partial hr hp p e hg
  rw [h] at h1
  cases h1
  rw [h3 rfl, List.append_nil] at h2
  rw [h4, ← h2]
  split
  · rfl
  · rename_i hk
    unfold World.get
    rw [lookupK_none.2 hk]

/-- C73, `strip`, cut short or not: the storages `pre` were visited and there the entity has nothing left, the
rest is untouched; all were visited if the call returned. Nothing else changes for alive entities. `e` is an
id handed out, dead or alive: this removes what a `delete_entity` that was cut short left behind. -/
theorem C73_strip {w : World V} {I : List EId} (hr : PReach fl w I) (p : Panics) {e : EId} (he : e ∈ I) :
    ∃ out w', w.stripU p e = .ok (out, w') ∧ (∀ x, w'.isAlive x = w.isAlive x) ∧
      (∃ pre post, w.stos.map Prod.fst = pre ++ post ∧ (out = .returned () → post = []) ∧
        (∀ k, w'.get k e = if k ∈ pre then .ok none else w.get k e)) ∧
      (out = .returned () → ∀ k, w'.get k e = .ok none) ∧
      (∀ x, x ≠ e → w.isAlive x = true → Same w w' x) := by
  obtain ⟨A, Q, hok⟩ := preach_ok hr
  have hv := hok.ent.valid_issued he
  obtain ⟨out, w', A', pre, post, h1, h2, h3, h4, h5, h6⟩ := hok.stripU hv p
  have hk : ∀ k, w'.get k e = if k ∈ pre then .ok none else w.get k e := by
    intro k
    rw [h3.get k hv.1, hok.get k hv.1, h6]
    by_cases hk : k ∈ pre
    · rw [if_pos hk, if_pos ⟨hk, rfl, Nat.le_refl _⟩]
    · rw [if_neg hk, if_neg (fun h => hk h.1)]
  refine ⟨out, w', h1, fun x => by unfold World.isAlive; rw [h2], ⟨pre, post, h4, h5, hk⟩, ?_, ?_⟩
  · intro ho k
    rw [hk, ← List.append_nil pre, ← h5 ho, ← h4]
    split
    · rfl
    · rename_i hn
      unfold World.get
      rw [lookupK_none.2 hn]
  · intro x hx hxa
    refine ⟨by unfold World.isAlive; rw [h2], fun k => ?_⟩
    have hg := (hok.ent.valid hxa).1
    rw [h3.get k hg, hok.get k hg, h6, if_neg (fun h => hok.not_hit he hxa hx h.2)]

/-- C73, `retain_storage_by_id`, cut short or not. -/
theorem C73_retain_storage {w : World V} {I : List EId} (hr : PReach fl w I) (p : Panics) {e : EId}
    (he : e ∈ I) (keep : List Nat) :
    ∃ out w', w.retainStorageByIdU p e keep = .ok (out, w') ∧ (∀ x, w'.isAlive x = w.isAlive x) ∧
      (∀ k ∈ keep, w'.get k e = w.get k e) ∧
      (∀ k, w'.get k e = w.get k e ∨ w'.get k e = .ok none) ∧
      (out = .returned () → ∀ k, k ∉ keep → w'.get k e = .ok none) ∧
      (∀ x, x ≠ e → w.isAlive x = true → Same w w' x) := by
  obtain ⟨A, Q, hok⟩ := preach_ok hr
  have hv := hok.ent.valid_issued he
  obtain ⟨out, w', A', pre, post, h1, h2, h3, h4, h5, h6⟩ := hok.retainStorageByIdU hv p keep
  refine ⟨out, w', h1, fun x => by unfold World.isAlive; rw [h2], ?_, ?_, ?_, ?_⟩
  · intro k hk
    rw [h3.get k hv.1, hok.get k hv.1, h6, if_neg (fun h => h.2.1 hk)]
  · intro k
    rw [h3.get k hv.1, hok.get k hv.1, h6]
    split
    · exact .inr rfl
    · exact .inl rfl
  · intro ho k hk
    rw [h3.get k hv.1, h6]
    split
    · rfl
    · rename_i hn
      have : k ∉ w.stos.map Prod.fst := by
        rw [h4, h5 ho, List.append_nil]
        intro hp
        exact hn ⟨hp, hk, rfl, Nat.le_refl _⟩
      have h7 := hok.get k hv.1
      unfold World.get at h7
      rw [lookupK_none.2 this] at h7
      rw [← h7]
  · intro x hx hxa
    refine ⟨by unfold World.isAlive; rw [h2], fun k => ?_⟩
    have hg := (hok.ent.valid hxa).1
    rw [h3.get k hg, hok.get k hg, h6, if_neg (fun h => hok.not_hit he hxa hx h.2.2)]

/-- C73, `bulk_strip`, cut short or not. -/
theorem C73_bulk_strip {w : World V} {I : List EId} (hr : PReach fl w I) (p : Nat → Panics) {es : List EId}
    (he : ∀ e ∈ es, e ∈ I) :
    ∃ out w', w.bulkStripU p es = .ok (out, w') ∧ (∀ x, w'.isAlive x = w.isAlive x) ∧
      (∀ k, ∀ e ∈ es, w'.get k e = w.get k e ∨ w'.get k e = .ok none) ∧
      (out = .returned () → ∀ k, ∀ e ∈ es, w'.get k e = .ok none) ∧
      (∀ x, x ∉ es → w.isAlive x = true → Same w w' x) := by
  obtain ⟨A, Q, hok⟩ := preach_ok hr
  have hv : ∀ e ∈ es, Valid e := fun e h => hok.ent.valid_issued (he e h)
  obtain ⟨out, w', A', h1, h2, h3, h4, h5⟩ := hok.bulkStripU hv p
  refine ⟨out, w', h1, fun x => by unfold World.isAlive; rw [h2], ?_, ?_, ?_⟩
  · intro k e hm
    rw [h3.get k (hv e hm).1, hok.get k (hv e hm).1]
    by_cases hc : look A' k e = look A k e
    · rw [hc]; exact .inl rfl
    · rw [(h4 k e hc).1]; exact .inr rfl
  · intro ho k e hm
    rw [h3.get k (hv e hm).1, h5 ho e hm k e ⟨rfl, Nat.le_refl _⟩]
  · intro x hx hxa
    refine ⟨by unfold World.isAlive; rw [h2], fun k => ?_⟩
    have hg := (hok.ent.valid hxa).1
    rw [h3.get k hg, hok.get k hg]
    refine congrArg _ (Classical.byContradiction fun hc => ?_)
    obtain ⟨_, e, hm, hh⟩ := h4 k x hc
    exact hok.not_hit (he e hm) hxa (fun h => hx (h ▸ hm)) hh

/-- C73, `remove`, cut short or not: what is returned is what the entity had; the types `pre` are removed,
all of them if the call returned. -/
theorem C73_remove {w : World V} {I : List EId} (hr : PReach fl w I) (p : Panics) (ks : List Nat)
    (hnd : ks.Nodup) {e : EId} (he : e ∈ I) :
    ∃ out w', w.removeU fl p ks e = .ok (out, w') ∧ (∀ x, w'.isAlive x = w.isAlive x) ∧
      (∃ pre post, ks = pre ++ post ∧ (∀ rs, out = .returned rs → post = [] ∧
          rs.map Except.ok = ks.map fun k => w.get k e) ∧
        (∀ k, w'.get k e = if k ∈ pre then .ok none else w.get k e)) ∧
      (∀ x, x ≠ e → w.isAlive x = true → Same w w' x) := by
  obtain ⟨A, Q, hok⟩ := preach_ok hr
  have hv := hok.ent.valid_issued he
  obtain ⟨out, w', A', pre, post, h1, h2, h3, h4, h5, h6⟩ :=
    hok.tick.removeAllU (fl := fl) hv p w.counter 0 ks
  refine ⟨out, w', h1, fun x => by unfold World.isAlive; rw [h2]; rfl, ⟨pre, post, h4, ?_, ?_⟩, ?_⟩
  · intro rs ho
    obtain ⟨k1, k2⟩ := h5 rs ho
    refine ⟨k1, ?_⟩
    rw [k2 hnd, List.map_map]
    exact List.map_congr_left fun k _ => (hok.get k hv.1).symm
  · intro k
    rw [h3.get k hv.1, hok.get k hv.1, h6]
    by_cases hk : k ∈ pre
    · rw [if_pos hk, if_pos ⟨hk, rfl, Nat.le_refl _⟩]
    · rw [if_neg hk, if_neg (fun h => hk h.1)]
  · intro x hx hxa
    refine ⟨by unfold World.isAlive; rw [h2]; rfl, fun k => ?_⟩
    have hg := (hok.ent.valid hxa).1
    rw [h3.get k hg, hok.get k hg, h6, if_neg (fun h => hok.not_hit he hxa hx h.2)]

/-- C73, `delete_component`, cut short or not: it tries the types `pre` in the order listed and stops at the
first the entity has; it returns whether there was one. -/
theorem C73_delete_component {w : World V} {I : List EId} (hr : PReach fl w I) (p : Panics) (ks : List Nat)
    {e : EId} (he : e ∈ I) :
    ∃ out w', w.deleteComponentU fl p ks e = .ok (out, w') ∧ (∀ x, w'.isAlive x = w.isAlive x) ∧
      (∃ pre post, ks = pre ++ post ∧
        (∀ k ∈ pre.dropLast, w.get k e = .ok none) ∧
        (out = .returned true → ∃ k ∈ pre, ∃ v, w.get k e = .ok (some v)) ∧
        (∀ k, w'.get k e = if k ∈ pre then .ok none else w.get k e)) ∧
      (∀ b, out = .returned b → (b = true ↔ ∃ k ∈ ks, ∃ v, w.get k e = .ok (some v))) ∧
      (∀ x, x ≠ e → w.isAlive x = true → Same w w' x) := by
  obtain ⟨A, Q, hok⟩ := preach_ok hr
  have hv := hok.ent.valid_issued he
  obtain ⟨out, w', A', pre, post, h1, h2, h3, h4, h5, h7, h6⟩ :=
    hok.tick.deleteFirstU (fl := fl) hv p w.counter 0 ks
  refine ⟨out, w', h1, fun x => by unfold World.isAlive; rw [h2]; rfl, ⟨pre, post, h4, ?_, ?_, ?_⟩, ?_, ?_⟩
  · intro k hk
    rw [hok.get k hv.1, h7 k hk]
  · intro ho
    obtain ⟨k, hk, hs⟩ := (h5 true ho).2 rfl
    obtain ⟨v, hv'⟩ := Option.isSome_iff_exists.1 hs
    exact ⟨k, hk, v, by rw [hok.get k hv.1, hv']⟩
  · intro k
    rw [h3.get k hv.1, hok.get k hv.1, h6]
    by_cases hk : k ∈ pre
    · rw [if_pos hk, if_pos ⟨hk, rfl, Nat.le_refl _⟩]
    · rw [if_neg hk, if_neg (fun h => hk h.1)]
  · intro b ho
    rw [(h5 b ho).1, List.any_eq_true]
    constructor
    · rintro ⟨k, hk, hs⟩
      obtain ⟨v, hv'⟩ := Option.isSome_iff_exists.1 hs
      exact ⟨k, hk, v, by rw [hok.get k hv.1, hv']⟩
    · rintro ⟨k, hk, v, hg⟩
      rw [hok.get k hv.1] at hg
      injection hg with hg
      exact ⟨k, hk, by rw [hg]; rfl⟩
  · intro x hx hxa
    refine ⟨by unfold World.isAlive; rw [h2]; rfl, fun k => ?_⟩
    have hg := (hok.ent.valid hxa).1
    rw [h3.get k hg, hok.get k hg, h6, if_neg (fun h => hok.not_hit he hxa hx h.2)]

/-- C73, `clear`, when destructors panic: the storages `pre` are empty, the rest is untouched; the entities are
all dead or all untouched; when the call returns everything is gone. Missing: `on_deletion` panics, see
`C73_clear_fails`; exhausted slots, see `C06_fails`. -/
theorem C73_clear_partial {w : World V} {I : List EId} (hr : PReach fl w I)
    (hne : ∀ e ∈ w.ents.data, e.gen < 65533) (m : Nat) (hp : Nat → Bool) (p : Panics) :
    ∃ out w', w.clearU m hp p = .ok (out, w') ∧ (out ≠ .unwound .hook →
      (∃ pre post, w.stos.map Prod.fst = pre ++ post ∧ (out = .returned () → post = []) ∧
        ∀ k x, x.gen < 65535 → w'.get k x = if k ∈ pre then .ok none else w.get k x) ∧
      ((∀ x, w'.isAlive x = w.isAlive x) ∨ ∀ x, w'.isAlive x = false) ∧
      (out = .returned () → ∀ x, w'.isAlive x = false)) := by
  obtain ⟨A, Q, hok⟩ := preach_ok hr
  obtain ⟨out, w', h1, h2⟩ := hok.clearU hne m hp p
  refine ⟨out, w', h1, fun ho => ?_⟩
  obtain ⟨A', Q', pre, post, h3, h4, h5, h6, h7, h8⟩ := h2 ho
  refine ⟨⟨pre, post, h4, h5, ?_⟩, ?_, h8⟩
  · intro k x hx
    rw [h3.get k hx, hok.get k hx, h6]
    split <;> rfl
  · rcases h7 with h7 | h7
    · left; intro x; unfold World.isAlive; rw [h7]
    · exact .inr h7

/-- C73, `delete_any`, cut short or not: it returns or unwinds out of user code, and the world can still be
used. -/
theorem C73_delete_any {w : World V} {I : List EId} (hr : PReach fl w I) (p : Panics)
    (q : Nat → Bool × Panics) (ks : List Nat) (order : List EId → List EId) :
    ∃ out w', w.deleteAnyU p q ks order = .ok (out, w') ∧ PReach fl w' I := by
  obtain ⟨A, Q, hok⟩ := preach_ok hr
  obtain ⟨out, w', A', Q', h1, h2⟩ := hok.deleteAnyU p q ks order
  exact ⟨out, w', h1, hr.deleteAny h1⟩

/-! ## The ordinary calls -/

/-- When nothing panics (`calm`) these are the calls C40 - C48 are about. -/
theorem C73_calm (w : World V) :
    (∀ cs e r w', w.addEntity fl cs = .ok (e, r, w') → w.addEntityU fl calm cs = .ok (e, endOf r, w')) ∧
    (∀ e cs r w', w.addComponent fl e cs = .ok (r, w') → w.addComponentU fl calm e cs = .ok (endOf r, w')) ∧
    (∀ e b w', w.deleteEntity e = .ok (b, w') → w.deleteEntityU false calm e = .ok (.returned b, w')) ∧
    (∀ e w', w.strip e = .ok w' → w.stripU calm e = .ok (.returned (), w')) ∧
    (∀ es w', w.bulkStrip es = .ok w' → w.bulkStripU (fun _ => calm) es = .ok (.returned (), w')) ∧
    (∀ e keep w', w.retainStorageById e keep = .ok w' →
      w.retainStorageByIdU calm e keep = .ok (.returned (), w')) ∧
    (∀ ks e rs w', w.remove fl ks e = .ok (rs, w') → w.removeU fl calm ks e = .ok (.returned rs, w')) ∧
    (∀ ks e b w', w.deleteComponent fl ks e = .ok (b, w') →
      w.deleteComponentU fl calm ks e = .ok (.returned b, w')) ∧
    (∀ m w', w.clear = .ok w' → w.clearU m (fun _ => false) calm = .ok (.returned (), w')) ∧
    (∀ ks order w', w.deleteAny ks order = .ok w' →
      w.deleteAnyU calm (fun _ => (false, calm)) ks order = .ok (.returned (), w')) := by
  refine ⟨?_, ?_, fun e b w' h => deleteEntityU_plain h, fun e w' h => stripU_plain h,
    fun es w' h => bulkStripU_plain h, fun e keep w' h => retainStorageByIdU_plain h,
    fun ks e rs w' h => removeAllU_plain _ _ _ 0 h, fun ks e b w' h => deleteFirstU_plain _ _ _ 0 h,
    fun m w' h => clearU_plain m h, fun ks order w' h => deleteAnyU_plain h⟩
  · intro cs e r w' h
    unfold World.addEntity at h
    unfold World.addEntityU
    simp only [bind, Except.bind] at h ⊢
    cases hg : w.ents.generate with
    | error f => rw [hg] at h; cases h
    | ok q =>
      rw [hg] at h
      simp only at h ⊢
      cases ha : addAll fl q.1 w.counter cs { w.tick with ents := q.2 } with
      | error f => rw [ha] at h; cases h
      | ok q2 => rw [ha] at h; cases h; rw [addAllU_plain _ _ _ 0 _ ha]
  · intro e cs r w' h
    unfold World.addComponent at h
    unfold World.addComponentU
    split
    · rename_i hb; rw [if_pos hb] at h; exact addAllU_plain _ _ _ 0 _ h
    · rename_i hb; rw [if_neg hb] at h; cases h; rfl

/-! ## Where it fails -/

/-- Two entities, `0` with the components 10 and 20, `1` with 11; destructors of type 0 panic. -/
def WSpec.pdemo : World Nat :=
  match (World.new : World Nat).addEntityU demoFlags calm [(0, some 10), (1, some 20)] with
  | .ok (_, _, w1) =>
    match w1.addEntityU demoFlags calm [(0, some 11)] with
    | .ok (_, _, w2) => w2
    | .error _ => w1
  | .error _ => World.new
open WSpec (pdemo)

theorem WSpec.pdemo_reach : PReach demoFlags pdemo [⟨0, 0⟩, ⟨1, 0⟩] :=
  .addEntity (p := calm) (cs := [(0, some 11)]) (out := .returned ()) (I := [⟨0, 0⟩])
    (.addEntity (p := calm) (cs := [(0, some 10), (1, some 20)]) (out := .returned ()) (I := [])
      (.init false) rfl (by unfold Fits; decide)) rfl (by unfold Fits; decide)
open WSpec (pdemo_reach)

/-- A destructor panics while `delete_entity` works: the entity is dead and cannot be deleted again, its
component of the storage not yet visited stays behind. `strip` removes it. -/
theorem C73_orphan_fails : ∃ w' w'' : World Nat, PReach demoFlags w' [⟨0, 0⟩, ⟨1, 0⟩] ∧
    pdemo.deleteEntityU false (fun k => (false, k == 0)) ⟨0, 0⟩ = .ok (.unwound .dtor, w') ∧
    w'.isAlive ⟨0, 0⟩ = false ∧ w'.get 0 ⟨0, 0⟩ = .ok none ∧ w'.get 1 ⟨0, 0⟩ = .ok (some 20) ∧
    w'.deleteEntity ⟨0, 0⟩ = .ok (false, w') ∧
    w'.strip ⟨0, 0⟩ = .ok w'' ∧ w''.get 1 ⟨0, 0⟩ = .ok none :=
  ⟨_, _, .deleteEntity (hp := false) (p := fun k => (false, k == 0)) (e := ⟨0, 0⟩) (out := .unwound .dtor)
    pdemo_reach (by decide) rfl, rfl, rfl, rfl, rfl, rfl, rfl, rfl⟩

/-- The next entity at that index does not see it (`C73_add_entity`), nor does what is added to it mix
with it: `0.1` gets the type 0, then the type 1. -/
example : ∃ w1 w2 w3 : World Nat,
    pdemo.deleteEntityU false (fun k => (false, k == 0)) ⟨0, 0⟩ = .ok (.unwound .dtor, w1) ∧
    w1.addEntityU demoFlags calm [(0, some 30)] = .ok (⟨0, 1⟩, .returned (), w2) ∧
    w2.get 0 ⟨0, 1⟩ = .ok (some 30) ∧ w2.get 1 ⟨0, 1⟩ = .ok none ∧ w2.get 1 ⟨0, 0⟩ = .ok (some 20) ∧
    w2.addComponentU demoFlags calm ⟨0, 1⟩ [(1, some 40)] = .ok (.returned (), w3) ∧
    w3.get 1 ⟨0, 1⟩ = .ok (some 40) ∧ w3.get 1 ⟨0, 0⟩ = .ok none :=
  ⟨_, _, _, rfl, rfl, rfl, rfl, rfl, rfl, rfl, rfl⟩

/-- When that destructor panics instead, the new entity has nothing and the dead one has its component. -/
example : ∃ w1 w2 w3 : World Nat,
    pdemo.deleteEntityU false (fun k => (false, k == 0)) ⟨0, 0⟩ = .ok (.unwound .dtor, w1) ∧
    w1.addEntityU demoFlags calm [(0, some 30)] = .ok (⟨0, 1⟩, .returned (), w2) ∧
    w2.addComponentU demoFlags (fun _ => (false, true)) ⟨0, 1⟩ [(1, some 40)] = .ok (.unwound .dtor, w3) ∧
    w3.get 1 ⟨0, 1⟩ = .ok none ∧ w3.get 1 ⟨0, 0⟩ = .ok (some 40) :=
  ⟨_, _, _, rfl, rfl, rfl, rfl, rfl⟩

/-- A tuple whose second callback panics: the first component is there, the second is not. The caller never
learns the id of the entity, which is alive. -/
theorem C73_half_added_fails : ∃ (w w' : World Nat) (I : List EId), PReach demoFlags w I ∧
    w.addEntityU demoFlags (fun i => (i == 1, false)) [(0, some 30), (1, some 40)] =
      .ok (⟨0, 0⟩, .unwound .hook, w') ∧
    w'.isAlive ⟨0, 0⟩ = true ∧ w'.get 0 ⟨0, 0⟩ = .ok (some 30) ∧ w'.get 1 ⟨0, 0⟩ = .ok none :=
  ⟨_, _, _, .view (k := 1) (ev := .done (.onInsertion true)) (.create 1 (.init false)) rfl
    (.done (.onInsertion (b := true))) trivial, rfl, rfl, rfl, rfl⟩

/-- Entities `0` to `3`, then `2` and `1` deleted, with an `on_deletion` callback. -/
theorem WSpec.hookdemo_reach : ∃ w : World Nat, PReach demoFlags w [⟨0, 0⟩, ⟨1, 0⟩, ⟨2, 0⟩, ⟨3, 0⟩] ∧
    w.ents = ⟨[⟨0, 0⟩, ⟨281474976710654, 1⟩, ⟨1, 1⟩, ⟨3, 0⟩], some (1, 2), true, [⟨2, 0⟩, ⟨1, 0⟩]⟩ ∧ w.stos = [] := by
  have h0 : PReach demoFlags (_ : World Nat) _ := .init true
  have h1 := h0.addEntity (p := calm) (cs := []) (out := .returned ()) (e := ⟨0, 0⟩) rfl (by unfold Fits; decide)
  have h2 := h1.addEntity (p := calm) (cs := []) (out := .returned ()) (e := ⟨1, 0⟩) rfl (by unfold Fits; decide)
  have h3 := h2.addEntity (p := calm) (cs := []) (out := .returned ()) (e := ⟨2, 0⟩) rfl (by unfold Fits; decide)
  have h4 := h3.addEntity (p := calm) (cs := []) (out := .returned ()) (e := ⟨3, 0⟩) rfl (by unfold Fits; decide)
  have h5 := h4.deleteEntity (hp := false) (p := calm) (e := ⟨2, 0⟩) (out := .returned true) (by decide) rfl
  have h6 := h5.deleteEntity (hp := false) (p := calm) (e := ⟨1, 0⟩) (out := .returned true) (by decide) rfl
  exact ⟨_, h6, rfl, rfl⟩

/-- C73 is false of `clear` when `on_deletion` panics: here on the last of four slots it is called for. The
slot it was called for now holds an id that was never handed out, `0.1`, and it is alive. After two more
entities the next `add_entity` reads out of bounds. -/
theorem C73_clear_fails : ∃ w w1 w2 w3 : World Nat, ∃ I, PReach demoFlags w I ∧
    (∀ e ∈ w.ents.data, e.gen < 65533) ∧
    w.clearU 0 (fun i => i == 0) calm = .ok (.unwound .hook, w1) ∧
    (⟨0, 1⟩ : EId) ∉ I ∧ w1.isAlive ⟨0, 1⟩ = true ∧
    (∃ e, w1.addEntity demoFlags [] = .ok (e, .returned, w2)) ∧
    (∃ e, w2.addEntity demoFlags [] = .ok (e, .returned, w3)) ∧
    w3.addEntity demoFlags [] = .error .oob := by
  obtain ⟨w, hr, he, hs⟩ := WSpec.hookdemo_reach
  obtain ⟨ents, stos, c⟩ := w
  simp only at he hs
  subst he; subst hs
  exact ⟨_, _, _, _, _, hr, (by intro e he; simp at he; rcases he with rfl | rfl | rfl | rfl <;> decide), rfl, by decide, rfl, ⟨_, rfl⟩, ⟨_, rfl⟩, rfl⟩

/-! ## Witness -/

/-- A history with four calls that were cut short; the theorems above apply to its end. -/
theorem cut_history : ∃ (w : World Nat) (I : List EId), PReach demoFlags w I ∧ I.length = 4 ∧
    w.isAlive ⟨1, 0⟩ = true ∧ w.get 0 ⟨1, 0⟩ = .ok (some 11) ∧
    w.isAlive ⟨0, 0⟩ = false ∧ w.get 1 ⟨0, 0⟩ = .ok (some 20) ∧
    w.isAlive ⟨0, 1⟩ = true ∧ w.get 0 ⟨0, 1⟩ = .ok (some 31) ∧ w.get 1 ⟨0, 1⟩ = .ok none ∧
    w.isAlive ⟨2, 0⟩ = true ∧ w.get 0 ⟨2, 0⟩ = .ok (some 50) ∧ w.get 1 ⟨2, 0⟩ = .ok none := by
  have h1 := pdemo_reach.deleteEntity (hp := false) (p := fun k => (false, k == 0)) (e := ⟨0, 0⟩)
    (out := .unwound .dtor) (by decide) rfl
  have h2 := h1.addEntity (p := calm) (cs := [(0, some 30)]) (out := .returned ()) (e := ⟨0, 1⟩) rfl
    (by unfold Fits; decide)
  have h3 := h2.addComponent (p := fun _ => (false, true)) (e := ⟨0, 1⟩) (cs := [(0, some 31), (1, some 41)])
    (out := .unwound .dtor) rfl
  have h4 := h3.view (k := 1) (ev := .done (.onInsertion true)) rfl (.done (.onInsertion (b := true))) trivial
  have h5 := h4.addEntity (p := fun i => (i == 1, false)) (cs := [(0, some 50), (1, some 60)])
    (out := .unwound .hook) (e := ⟨2, 0⟩) rfl (by unfold Fits; decide)
  exact ⟨_, _, h5, rfl, rfl, rfl, rfl, rfl, rfl, rfl, rfl, rfl, rfl, rfl⟩

end Verif
