import Verif.Model.Serde
import Verif.Lemmas.WorldRetain
import Verif.Props.Entities
import Verif.Props.SparseSet2

/-!
# Lemmas about serialization
-/
namespace Verif.Serde
open SparseSet (Abs contents)
open StoSpec (Sto Valid lookup)
open World (insTab insert_tab lookup_insTab)
variable {T C : Type}

theorem decNum_num {b n : Nat} (h : n < b) : decNum (C := C) b (.num n) = some n := by
  simp only [decNum, if_pos h]

theorem idMap_index {l : List (String × Doc C)} {d : Doc C} {i : Nat} {g : Option Nat}
    (h : decNum (2 ^ 64) d = some i) : idMap (("index", d) :: l) none g = idMap l (some i) g := by
  conv => lhs; unfold idMap
  rw [if_pos rfl, h]

theorem idMap_gen {l : List (String × Doc C)} {d : Doc C} {g : Nat} {i : Option Nat}
    (h : decNum 65536 d = some g) : idMap (("gen", d) :: l) i none = idMap l i (some g) := by
  conv => lhs; unfold idMap
  rw [if_neg (by decide), if_pos rfl, h]

theorem idMap_pair {i g : Nat} (hi : i < 2 ^ 64) (hg : g < 65536) :
    idMap (C := C) [("index", .num i), ("gen", .num g)] none none = idOf (some i) (some g) := by
  rw [idMap_index (decNum_num hi), idMap_gen (decNum_num hg), idMap]

theorem decId_human (f : Fmt) {e : EId} (h : e.WF) (hf : f.human = true) :
    decId (C := C) f (encId f e) = .ok (some e) := by
  have hi : e.idx < 2 ^ 64 := by
    have := h.1
    have hm : EId.INDEX_MASK = 2 ^ 48 - 1 := rfl
    rw [hm] at this; omega
  have hp : idOf (some e.idx) (some e.gen) = .ok (some e) := by
    simp only [idOf, EId.fromParts, if_pos h.1, bind, Except.bind]
  simp only [decId, encId, Fmt.struct, hf, if_true]
  cases f.structSeq with
  | true =>
    simp only [if_true, List.map_cons, List.map_nil, idSeq]
    rw [decNum_num hi, decNum_num h.2, hp]
  | false =>
    simp only [Bool.false_eq_true, if_false]
    rw [idMap_pair hi h.2, hp]

theorem decId_binary (f : Fmt) {e : EId} (h : e.WF) (hf : f.human = false) :
    decId (C := C) f (encId f e) = .ok (some e) := by
  obtain ⟨h1, h2⟩ := h
  have hm : EId.INDEX_MASK = 2 ^ 48 - 1 := rfl
  rw [hm] at h1
  have hn : e.gen * 2 ^ 48 + e.idx < 2 ^ 64 := by omega
  have a1 : (e.gen * 2 ^ 48 + e.idx + 1) % 2 ^ 48 = e.idx + 1 := by omega
  have a2 : (e.gen * 2 ^ 48 + e.idx + 1) / 2 ^ 48 = e.gen := by omega
  simp only [decId, encId, hf, Bool.false_eq_true, if_false]
  rw [decNum_num hn]
  simp only [a1, a2, Nat.add_sub_cancel]
  rw [if_neg (Nat.succ_ne_zero _)]

theorem decId_encId (f : Fmt) {e : EId} (h : e.WF) : decId (C := C) f (encId f e) = .ok (some e) := by
  cases hf : f.human with
  | true => exact decId_human f h hf
  | false => exact decId_binary f h hf

theorem decPair_encPair (cd : Codec T C) (f : Fmt) {x : EId × T} (h : x.1.WF) :
    decPair cd f (encPair cd f x) = .ok (some x) := by
  simp only [encPair, decPair, decId_encId f h, bind, Except.bind, cd.ok]

theorem decSeq_enc (cd : Codec T C) (f : Fmt) (ov : Bool) (now : Nat) : ∀ (xs : List (EId × T)) (s : SparseSet T),
    (∀ x ∈ xs, x.1.WF) →
    decSeq cd f ov now (xs.map (encPair cd f)) s = (addMany ov now xs s).map fun s' => (true, s')
  | [], s, _ => rfl
  | x :: xs, s, h => by
    simp only [List.map_cons, decSeq, addMany, decPair_encPair cd f (h x List.mem_cons_self), bind,
      Except.bind]
    cases addOne ov now x s with
    | error er => rfl
    | ok s' => exact decSeq_enc cd f ov now xs s' fun y hy => h y (List.mem_cons_of_mem _ hy)

theorem decPairs_enc (cd : Codec T C) (f : Fmt) : ∀ (xs : List (EId × T)), (∀ x ∈ xs, x.1.WF) →
    decPairs cd f (xs.map (encPair cd f)) = .ok (some xs)
  | [], _ => rfl
  | x :: xs, h => by
    simp only [List.map_cons, decPairs, decPair_encPair cd f (h x List.mem_cons_self), bind, Except.bind,
      decPairs_enc cd f xs fun y hy => h y (List.mem_cons_of_mem _ hy)]

/-- Reading a serialized view is inserting its contents one after the other. -/
theorem decView_enc (cd : Codec T C) (f : Fmt) (tn : Option String) (ov : Bool) (now : Nat) (s t : SparseSet T)
    (hf : tn.isSome = true → f.structSeq = false) (h : ∀ x ∈ s.contents, x.1.WF) :
    decView cd f tn.isSome ov now (encView cd f tn s) t =
      (addMany ov now s.contents t).map fun t' => (true, t') := by
  cases tn with
  | none =>
    simp only [encView, decView, Option.isSome, Bool.false_eq_true, if_false]
    exact decSeq_enc cd f ov now _ t h
  | some n =>
    have := decPairs_enc cd f s.contents h
    unfold contents at this
    simp only [encView, decView, Option.isSome, if_true, Fmt.struct, hf rfl, Bool.false_eq_true, if_false,
      typedMap, this, bind, Except.bind, if_neg (show ¬"type_name" = "data" by decide), Option.getD]
    unfold contents
    cases addMany ov now (s.dense.zip s.data) t <;> rfl

theorem Abs_contains {P : Prop} {s : SparseSet T} {a : Sto T} {L} (h : Abs P s a L) {e : EId} (he : e.gen < 65535) :
    s.contains e = .ok (lookup a.rows e).isSome := by
  have h1 := h.get he
  rw [h.shape] at h1 ⊢
  rw [SparseSet.contains_ok h.ok e he]
  rw [SparseSet.get_ok h.ok e he] at h1
  rw [Except.ok.inj h1]

/-- Inserting one component where only the same entity may own one. -/
theorem addOne_ok {s : SparseSet T} {a : Sto T} {L} (h : World.AbsW s a L) (ov : Bool) (now : Nat) {e : EId}
    (v : T) (he : Valid e) (hown : ∀ r, a.rows e.idx = some r → r.gen = e.gen) :
    ∃ s' a' L', addOne ov now (e, v) s = .ok s' ∧ World.AbsW s' a' L' ∧
      (∀ x, lookup a'.rows x = if x = e then (if ov then some v else (lookup a.rows e).or (some v))
        else lookup a.rows x) ∧
      (∀ j, j ≠ e.idx → a'.rows j = a.rows j) ∧
      (a.rows e.idx = none → s'.contents = s.contents ++ [(e, v)]) ∧
      ((ov = false ∧ s' = s) ∨ ∃ r, s.insert e v now = .ok (r, s')) := by
  obtain ⟨r, s', L', h1, _, h3⟩ := insert_tab h he hown v now
  have hins : ∃ s' a' L', (do let (_, s') ← s.insert e v now; (.ok s' : Res _)) = .ok s' ∧ World.AbsW s' a' L' ∧
      (∀ x, lookup a'.rows x = if x = e then some v else lookup a.rows x) ∧
      (∀ j, j ≠ e.idx → a'.rows j = a.rows j) ∧
      (a.rows e.idx = none → s'.contents = s.contents ++ [(e, v)]) ∧ ∃ r, s.insert e v now = .ok (r, s') := by
    refine ⟨s', _, L', by simp only [h1, bind, Except.bind], h3, lookup_insTab hown v now, ?_, ?_, r, h1⟩
    · intro j hj
      rw [World.rows_insTab]; unfold StoSpec.setRow; rw [if_neg hj]
    · intro hn
      obtain ⟨r2, hook, sp2, L2, g1, g2, g3⟩ := SparseSet.insert_ok (s := s) h.ok he v now
      rw [← h.shape, h1] at g1
      have hs' := congrArg Prod.snd (Except.ok.inj g1)
      simp only at hs'
      have hno : ∀ c ∈ L, c.id.idx ≠ e.idx := by
        rw [h.rows] at hn
        cases hc : SparseSet.cellAt L e.idx with
        | none => exact SparseSet.cellAt_none.1 hc
        | some c => rw [hc] at hn; cases hn
      have hc : s.contents = L.map fun c => (c.id, c.val) := by
        unfold contents; rw [h.shape]; exact SparseSet.zip_rows _ _ _
      have hc' : s'.contents = L2.map fun c => (c.id, c.val) := by
        unfold contents; rw [hs']; exact SparseSet.zip_rows _ _ _
      rw [hc, hc']
      cases g3 with
      | new _ => rw [List.map_append]; rfl
      | override hi hce _ => exact absurd hce (hno _ (List.mem_of_getElem? hi))
      | newer hi hce _ => exact absurd hce (hno _ (List.mem_of_getElem? hi))
      | older hc hce _ => exact absurd hce (hno _ hc)
  obtain ⟨s2, a2, L2, i1, i2, i3, i4, i5, i6⟩ := hins
  cases ov with
  | true =>
    refine ⟨s2, a2, L2, ?_, i2, i3, i4, i5, .inr i6⟩
    simpa only [addOne, Bool.not_true, Bool.false_eq_true, if_false] using i1
  | false =>
    cases hl : lookup a.rows e with
    | none =>
      refine ⟨s2, a2, L2, ?_, i2, ?_, i4, i5, .inr i6⟩
      · simp only [addOne, Bool.not_false, if_true, Abs_contains h.toAbs he.1, hl, bind, Except.bind, Option.isSome,
          Bool.false_eq_true, if_false]
        exact i1
      · intro x; rw [i3]; split <;> simp [Option.or]
    | some o =>
      refine ⟨s, a, L, ?_, h, ?_, fun _ _ => rfl, ?_, .inl ⟨rfl, rfl⟩⟩
      · simp only [addOne, Bool.not_false, if_true, Abs_contains h.toAbs he.1, hl, bind, Except.bind, Option.isSome]
        rfl
      · intro x; split
        · rename_i hx; subst hx; simp [hl]
        · rfl
      · intro hn; unfold lookup at hl; rw [hn] at hl; cases hl

/-- Inserting components of distinct entities. -/
theorem addMany_ok (ov : Bool) (now : Nat) : ∀ (xs : List (EId × T)) {s : SparseSet T} {a : Sto T} {L},
    World.AbsW s a L → (xs.map (·.1.idx)).Nodup → (∀ x ∈ xs, Valid x.1) →
    (∀ x ∈ xs, ∀ r, a.rows x.1.idx = some r → r.gen = x.1.gen) →
    ∃ s' a' L', addMany ov now xs s = .ok s' ∧ World.AbsW s' a' L' ∧
      (∀ x ∈ xs, lookup a'.rows x.1 = if ov then some x.2 else (lookup a.rows x.1).or (some x.2)) ∧
      (∀ y, (∀ x ∈ xs, x.1 ≠ y) → lookup a'.rows y = lookup a.rows y) ∧
      ((∀ x ∈ xs, a.rows x.1.idx = none) → s'.contents = s.contents ++ xs)
  | [], s, a, L, h, _, _, _ =>
    ⟨s, a, L, rfl, h, (fun x hx => by cases hx), fun _ _ => rfl, fun _ => by simp⟩
  | x :: xs, s, a, L, h, hnd, hv, hown => by
    rw [List.map_cons, List.nodup_cons] at hnd
    obtain ⟨s1, a1, L1, h1, h2, h3, h4, h5, _⟩ := addOne_ok h ov now x.2 (hv x List.mem_cons_self)
      (hown x List.mem_cons_self)
    have hne : ∀ y ∈ xs, y.1.idx ≠ x.1.idx := by
      intro y hy he
      exact hnd.1 (List.mem_map.2 ⟨y, hy, he⟩)
    obtain ⟨s2, a2, L2, g1, g2, g3, g4, g5⟩ := addMany_ok ov now xs h2 hnd.2
      (fun y hy => hv y (List.mem_cons_of_mem _ hy)) (by
        intro y hy r hr
        rw [h4 _ (hne y hy)] at hr
        exact hown y (List.mem_cons_of_mem _ hy) r hr)
    refine ⟨s2, a2, L2, ?_, g2, ?_, ?_, ?_⟩
    · simp only [addMany, bind, Except.bind]
      rw [show addOne ov now x s = .ok s1 from h1]
      exact g1
    · intro y hy
      rcases List.mem_cons.1 hy with rfl | hy
      · rw [g4 _ (fun z hz he => hne z hz (congrArg EId.idx he)), h3, if_pos rfl]
      · rw [g3 y hy, h3, if_neg (fun he => hne y hy (congrArg EId.idx he))]
    · intro y hy
      rw [g4 y (fun z hz => hy z (List.mem_cons_of_mem _ hz)), h3,
        if_neg (fun he => hy x List.mem_cons_self he.symm)]
    · intro hn
      rw [g5 (fun y hy => by rw [h4 _ (hne y hy)]; exact hn y (List.mem_cons_of_mem _ hy)),
        h5 (hn x List.mem_cons_self), List.append_assoc]
      rfl

/-- The contents of a storage without takeovers are its components. -/
theorem contents_mem {s : SparseSet T} {a : Sto T} {L} (h : World.AbsW s a L) :
    (s.contents.map (·.1.idx)).Nodup ∧ (∀ x ∈ s.contents, Valid x.1) ∧
    ∀ x, x ∈ s.contents ↔ lookup a.rows x.1 = some x.2 := by
  have hv : ∀ x ∈ s.contents, Valid x.1 := by
    intro x hx
    have hc : s.contents = L.map fun c => (c.id, c.val) := by
      unfold contents; rw [h.shape]; exact SparseSet.zip_rows _ _ _
    rw [hc, List.mem_map] at hx
    obtain ⟨c, hc, rfl⟩ := hx
    have h1 := h.ok.cells c hc
    have h2 := h.clean trivial c hc
    exact ⟨by simp only; omega, h1.2.2.2⟩
  obtain ⟨k1, _, k3⟩ := SparseSet.contents_ok h.toAbs
  refine ⟨k1, hv, fun x => ⟨fun hx => ?_, fun hx => ?_⟩⟩
  · have := (k3 trivial x.1 x.2 (hv x hx)).2 hx
    rw [h.get (hv x hx).1] at this
    exact Except.ok.inj this
  · have hvx : Valid x.1 := by
      obtain ⟨r, h1, h2, _⟩ := World.lookup_iff.1 hx
      rw [h.rows] at h1
      cases hc : SparseSet.cellAt L x.1.idx with
      | none => rw [hc] at h1; cases h1
      | some c =>
        obtain ⟨c1, c2⟩ := (SparseSet.cellAt_some h.ok).1 hc
        rw [hc] at h1; cases h1
        have h3 := h.ok.cells c c1
        exact ⟨by rw [← h2]; exact h3.1, by rw [← c2]; exact h3.2.2.2⟩
    exact (k3 trivial x.1 x.2 hvx).1 (by rw [h.get hvx.1, hx])

theorem wf_of_valid {e : EId} (h : Valid e) : e.WF := ⟨h.2, Nat.lt_succ_of_lt h.1⟩

/-- Reading a serialized view into a storage whose components at the same indices are those of the same
entities. -/
theorem decView_ok {s t : SparseSet T} {a b : Sto T} {L M} (hs : World.AbsW s a L) (ht : World.AbsW t b M)
    (cd : Codec T C) (f : Fmt) (tn : Option String) (ov : Bool) (now : Nat)
    (hf : tn.isSome = true → f.structSeq = false)
    (hown : ∀ x ∈ s.contents, ∀ r, b.rows x.1.idx = some r → r.gen = x.1.gen) :
    ∃ t' b' M', decView cd f tn.isSome ov now (encView cd f tn s) t = .ok (true, t') ∧
      addMany ov now s.contents t = .ok t' ∧ World.AbsW t' b' M' ∧
      (∀ y, lookup b'.rows y = if ov then (lookup a.rows y).or (lookup b.rows y)
        else (lookup b.rows y).or (lookup a.rows y)) ∧
      ((∀ j, b.rows j = none) → t'.contents = t.contents ++ s.contents) := by
  obtain ⟨k1, k2, k3⟩ := contents_mem hs
  obtain ⟨t', b', M', h1, h2, h3, h4, h5⟩ := addMany_ok ov now s.contents ht k1 k2 hown
  refine ⟨t', b', M', ?_, h1, h2, ?_, fun hn => h5 fun x _ => hn _⟩
  · rw [decView_enc cd f tn ov now s t hf (fun x hx => wf_of_valid (k2 x hx)), h1]; rfl
  · intro y
    cases hl : lookup a.rows y with
    | none =>
      rw [h4 y]
      · cases ov <;> simp
      · intro x hx he
        have := (k3 x).1 hx
        rw [he, hl] at this; cases this
    | some v =>
      rw [h3 (y, v) ((k3 (y, v)).2 hl)]
      cases ov <;> simp

end Verif.Serde
