import Verif.Spec.Storage
import Verif.Lemmas.SparseSetSort

/-! # Lemmas: the storage refines its specification -/
namespace Verif.SparseSet
open EId (BUCKET_SIZE)
open SparseArray (WFA look has)
open StoSpec (Sto Row Event Call Step Run Valid)
variable {T : Type}

def Cell.toRow (c : Cell T) : Row T := ⟨c.gen, c.val, c.ins, c.mod⟩

theorem cellAt_ext {sp : SparseArray} {L : List (Cell T)} (h : SOK sp L) {j : Nat}
    {o : Option (Cell T)} (ho : ∀ c, (c ∈ L ∧ c.id.idx = j) ↔ o = some c) : cellAt L j = o := by
  cases hc : cellAt L j with
  | none =>
    rw [cellAt_none] at hc
    cases o with
    | none => rfl
    | some d => exact absurd ((ho d).2 rfl).2 (hc d ((ho d).2 rfl).1)
  | some c =>
    rw [cellAt_some h] at hc
    exact ((ho c).1 hc).symm

theorem mem_set {sp : SparseArray} {L : List (Cell T)} (h : SOK sp L) {i : Nat} {c d : Cell T}
    (hi : L[i]? = some c) (x : Cell T) :
    x ∈ L.set i d ↔ x = d ∨ (x ∈ L ∧ x.id.idx ≠ c.id.idx) := by
  have hlt := getElem?_lt hi
  constructor
  · intro hx
    obtain ⟨k, hk⟩ := List.mem_iff_getElem?.1 hx
    by_cases hki : i = k
    · subst hki
      rw [List.getElem?_set_self hlt] at hk
      exact .inl (by cases hk; rfl)
    · rw [List.getElem?_set_ne hki] at hk
      refine .inr ⟨List.mem_of_getElem? hk, ?_⟩
      intro he
      exact hki (h.inj hi hk he.symm).1
  · rintro (rfl | ⟨hx, hne⟩)
    · exact List.mem_of_getElem? (List.getElem?_set_self hlt)
    · obtain ⟨k, hk⟩ := List.mem_iff_getElem?.1 hx
      have hki : i ≠ k := by
        rintro rfl
        rw [hi] at hk; cases hk; exact hne rfl
      refine List.mem_of_getElem? (i := k) ?_
      rw [List.getElem?_set_ne hki]; exact hk

theorem cellAt_set {sp sp' : SparseArray} {L : List (Cell T)} (h : SOK sp L) {i : Nat} {c d : Cell T}
    (hi : L[i]? = some c) (hid : d.id.idx = c.id.idx) (h' : SOK sp' (L.set i d)) (j : Nat) :
    cellAt (L.set i d) j = if j = c.id.idx then some d else cellAt L j := by
  refine cellAt_ext h' ?_
  intro x
  rw [mem_set h hi]
  split
  · rename_i hj
    subst hj
    constructor
    · rintro ⟨rfl | ⟨_, hne⟩, he⟩
      · rfl
      · exact absurd he hne
    · intro he; cases he; exact ⟨.inl rfl, hid⟩
  · rename_i hj
    rw [cellAt_some h]
    constructor
    · rintro ⟨rfl | ⟨hx, _⟩, he⟩
      · exact absurd (he.symm.trans hid) hj
      · exact ⟨hx, he⟩
    · rintro ⟨hx, he⟩
      exact ⟨.inr ⟨hx, fun hh => hj (he.symm.trans hh)⟩, he⟩

theorem cellAt_push {sp sp' : SparseArray} {L : List (Cell T)} (h : SOK sp L) {d : Cell T}
    (h' : SOK sp' (L ++ [d])) (hn : ∀ c ∈ L, c.id.idx ≠ d.id.idx) (j : Nat) :
    cellAt (L ++ [d]) j = if j = d.id.idx then some d else cellAt L j := by
  refine cellAt_ext h' ?_
  intro x
  rw [List.mem_append, List.mem_singleton]
  split
  · rename_i hj
    subst hj
    constructor
    · rintro ⟨hx | rfl, he⟩
      · exact absurd he (hn x hx)
      · rfl
    · intro he; cases he; exact ⟨.inr rfl, rfl⟩
  · rename_i hj
    rw [cellAt_some h]
    constructor
    · rintro ⟨hx | rfl, he⟩
      · exact ⟨hx, he⟩
      · exact absurd he.symm hj
    · rintro ⟨hx, he⟩; exact ⟨.inl hx, he⟩

theorem cellAt_swapDel {sp sp' : SparseArray} {L : List (Cell T)} (h : SOK sp L) {i : Nat} {c : Cell T}
    (hi : L[i]? = some c) (h' : SOK sp' (swapDel L i)) (j : Nat) :
    cellAt (swapDel L i) j = if j = c.id.idx then none else cellAt L j := by
  refine cellAt_ext h' ?_
  intro x
  rw [swapDel_mem h hi]
  split
  · rename_i hj
    subst hj
    constructor
    · rintro ⟨⟨_, hne⟩, he⟩; exact absurd he hne
    · intro he; cases he
  · rename_i hj
    rw [cellAt_some h]
    constructor
    · rintro ⟨⟨hx, _⟩, he⟩; exact ⟨hx, he⟩
    · rintro ⟨hx, he⟩
      exact ⟨⟨hx, fun hh => hj (he.symm.trans hh)⟩, he⟩

theorem cellAt_mem {sp : SparseArray} {L : List (Cell T)} (h : SOK sp L) {i : Nat} {c : Cell T}
    (hi : L[i]? = some c) : cellAt L c.id.idx = some c :=
  (cellAt_some h).2 ⟨List.mem_of_getElem? hi, rfl⟩

/-- `s` refines `a`, its cells being `L`. Whatever goes through `retain` under a wrong dense id is only
claimed under `P`. -/
structure Abs (P : Prop) (s : SparseSet T) (a : Sto T) (L : List (Cell T)) : Prop where
  shape : s = build s s.sparse L
  ok : SOK s.sparse L
  rows : ∀ j : Nat, a.rows j = (cellAt L j).map Cell.toRow
  trkIns : s.trkIns = a.trkIns
  trkMod : s.trkMod = a.trkMod
  trkDel : s.trkDel = a.trkDel
  trkRem : s.trkRem = a.trkRem
  lastInsert : s.lastInsert = a.lastInsert
  lastModified : s.lastModified = a.lastModified
  hookIns : s.hookIns = a.hookIns
  hookRem : s.hookRem = a.hookRem
  insCalls : s.logIns = a.insCalls
  removed : s.removalData = a.removed
  clean : P → ∀ c ∈ L, c.gen = c.id.gen
  deleted : P → s.deletionData = a.deleted
  remCalls : P → s.logRem = a.remCalls

/-- Two states with the same data outside the vectors. -/
theorem Abs.of_build {P Q : Prop} {s t : SparseSet T} {a b : Sto T} {sp' : SparseArray}
    {L L' : List (Cell T)} (h : Abs P s a L) (ok' : SOK sp' L')
    (hrows : ∀ j : Nat, b.rows j = (cellAt L' j).map Cell.toRow)
    (hclean : Q → ∀ c ∈ L', c.gen = c.id.gen) (hQ : Q → P)
    (h1 : t.trkIns = s.trkIns ∧ b.trkIns = a.trkIns) (h2 : t.trkMod = s.trkMod ∧ b.trkMod = a.trkMod)
    (h3 : t.trkDel = s.trkDel ∧ b.trkDel = a.trkDel) (h4 : t.trkRem = s.trkRem ∧ b.trkRem = a.trkRem)
    (h5 : t.lastInsert = s.lastInsert ∧ b.lastInsert = a.lastInsert)
    (h6 : t.lastModified = s.lastModified ∧ b.lastModified = a.lastModified)
    (h7 : t.hookIns = s.hookIns ∧ b.hookIns = a.hookIns)
    (h8 : t.hookRem = s.hookRem ∧ b.hookRem = a.hookRem)
    (h9 : t.logIns = b.insCalls) (h10 : t.removalData = b.removed)
    (h11 : Q → t.deletionData = b.deleted) (h12 : Q → t.logRem = b.remCalls) :
    Abs Q (build t sp' L') b L' where
  shape := rfl
  ok := ok'
  rows := hrows
  trkIns := h1.1.trans (h.trkIns.trans h1.2.symm)
  trkMod := h2.1.trans (h.trkMod.trans h2.2.symm)
  trkDel := h3.1.trans (h.trkDel.trans h3.2.symm)
  trkRem := h4.1.trans (h.trkRem.trans h4.2.symm)
  lastInsert := h5.1.trans (h.lastInsert.trans h5.2.symm)
  lastModified := h6.1.trans (h.lastModified.trans h6.2.symm)
  hookIns := h7.1.trans (h.hookIns.trans h7.2.symm)
  hookRem := h8.1.trans (h.hookRem.trans h8.2.symm)
  insCalls := h9
  removed := h10
  clean := hclean
  deleted := h11
  remCalls := h12

/-- The same when only vectors changed. -/
theorem Abs.vectors {P Q : Prop} {s : SparseSet T} {a : Sto T} {sp' : SparseArray}
    {L L' : List (Cell T)} (h : Abs P s a L) (ok' : SOK sp' L') {rows' : Nat → Option (Row T)}
    (hrows : ∀ j : Nat, rows' j = (cellAt L' j).map Cell.toRow)
    (hclean : Q → ∀ c ∈ L', c.gen = c.id.gen) (hQ : Q → P) :
    Abs Q (build s sp' L') { a with rows := rows' } L' :=
  h.of_build (t := s) ok' hrows hclean hQ ⟨rfl, rfl⟩ ⟨rfl, rfl⟩ ⟨rfl, rfl⟩ ⟨rfl, rfl⟩ ⟨rfl, rfl⟩ ⟨rfl, rfl⟩
    ⟨rfl, rfl⟩ ⟨rfl, rfl⟩ h.insCalls h.removed (fun q => h.deleted (hQ q)) (fun q => h.remCalls (hQ q))

theorem abs_new (a b c d : Bool) : Abs True (new a b c d : SparseSet T) (Sto.init a b c d) [] where
  shape := new_build a b c d
  ok := sok_new
  rows := fun _ => rfl
  trkIns := rfl
  trkMod := rfl
  trkDel := rfl
  trkRem := rfl
  lastInsert := rfl
  lastModified := rfl
  hookIns := rfl
  hookRem := rfl
  insCalls := rfl
  removed := rfl
  clean := by simp
  deleted := fun _ => rfl
  remCalls := fun _ => rfl

theorem Abs.get {P : Prop} {s : SparseSet T} {a : Sto T} {L : List (Cell T)} (h : Abs P s a L) {e : EId}
    (he : e.gen < 65535) : s.get e = .ok (StoSpec.lookup a.rows e) := by
  rw [h.shape, get_ok h.ok e he]
  congr 1
  unfold readCell StoSpec.lookup
  rw [h.rows]
  cases cellAt L e.idx <;> rfl

theorem setRow_self {rows : Nat → Option (Row T)} {i : Nat} {r : Option (Row T)} (h : rows i = r) :
    StoSpec.setRow rows i r = rows := by
  funext j
  unfold StoSpec.setRow
  split
  · rename_i hj; rw [hj, h]
  · rfl

theorem callIns_eq (s : SparseSet T) (e : EId) (v : T) :
    s.callIns e v = { s with logIns := if s.hookIns then s.logIns ++ [(e, v)] else s.logIns } := by
  cases s; unfold callIns; simp only; split <;> rfl

theorem callRem_eq (s : SparseSet T) (e : EId) (v : T) :
    s.callRem e v = { s with logRem := if s.hookRem then s.logRem ++ [(e, v)] else s.logRem } := by
  cases s; unfold callRem; simp only; split <;> rfl

/-! ## Insertion -/

theorem abs_insert {P Q : Prop} {s s' : SparseSet T} {a : Sto T} {L : List (Cell T)} (h : Abs P s a L)
    {e : EId} {v : T} {now : Nat} {r : InsertionResult T} (he : Valid e)
    (hs : s.insert e v now = .ok (r, s')) (hQ : Q → P ∧ r ≠ .otherComponentOverride) :
    ∃ L', Abs Q s' (StoSpec.step a (.inserted e v now r)) L' := by
  obtain ⟨r', hook, sp', L', h1, h2, h3⟩ := insert_ok (s := s) h.ok he v now
  rw [h.shape, h1] at hs
  injection hs with hs
  injection hs with hr hs
  subst hr; subst hs
  refine ⟨L', ?_⟩
  have key : ∀ (hacc : StoSpec.accepts a e = hook)
      (hrows : ∀ j : Nat, StoSpec.setRow a.rows e.idx (StoSpec.insertRow a e v now) j =
        (cellAt L' j).map Cell.toRow)
      (hcl : Q → ∀ c ∈ L', c.gen = c.id.gen),
      Abs Q (build (if hook then s.callIns e v else s) sp' L')
        (StoSpec.step a (.inserted e v now r')) L' := by
    intro hacc hrows hcl
    have hf : (if hook then s.callIns e v else s) =
        { s with logIns := if hook && s.hookIns then s.logIns ++ [(e, v)] else s.logIns } := by
      rw [callIns_eq]; cases hook <;> simp
    rw [hf]
    refine h.of_build h2 hrows hcl (fun q => (hQ q).1) ⟨rfl, rfl⟩ ⟨rfl, rfl⟩ ⟨rfl, rfl⟩ ⟨rfl, rfl⟩ ⟨rfl, rfl⟩
      ⟨rfl, rfl⟩ ⟨rfl, rfl⟩ ⟨rfl, rfl⟩ ?_ h.removed (fun q => h.deleted (hQ q).1)
      (fun q => h.remCalls (hQ q).1)
    show (if hook && s.hookIns then s.logIns ++ [(e, v)] else s.logIns) =
      if a.hookIns && StoSpec.accepts a e then a.insCalls ++ [(e, v)] else a.insCalls
    rw [hacc, h.hookIns, h.insCalls, Bool.and_comm]
  cases h3 with
  | new hn =>
    have hnone : a.rows e.idx = none := by rw [h.rows, cellAt_none.2 hn]; rfl
    refine key ?_ ?_ ?_
    · unfold StoSpec.accepts; rw [hnone]
    · intro j
      rw [cellAt_push h.ok h2 hn]
      unfold StoSpec.setRow StoSpec.insertRow
      rw [hnone, ← h.trkIns]
      show (if j = e.idx then _ else _) = Option.map _ (if j = e.idx then _ else _)
      split
      · rfl
      · exact h.rows j
    · intro q c hc
      rcases List.mem_append.1 hc with hc | hc
      · exact h.clean (hQ q).1 c hc
      · rw [List.mem_singleton] at hc; subst hc; rfl
  | @override i c hi hce hcg =>
    have hrow : a.rows e.idx = some c.toRow := by rw [h.rows, ← hce, cellAt_mem h.ok hi]; rfl
    refine key ?_ ?_ ?_
    · unfold StoSpec.accepts; rw [hrow]; show decide (c.gen ≤ e.gen) = true; simp [hcg]
    · intro j
      have := cellAt_set h.ok hi (d := { c with
          id := ⟨c.id.idx, c.id.gen ||| e.gen⟩, val := v, mod := if s.trkMod then now else c.mod }) rfl h2 j
      rw [this]
      unfold StoSpec.setRow StoSpec.insertRow
      rw [hrow, hce]
      show (if j = e.idx then (if c.gen = e.gen then _ else _) else _) = _
      rw [if_pos hcg]
      split
      · rw [h.trkMod]; rfl
      · exact h.rows j
    · intro q x hx
      rw [mem_set h.ok hi] at hx
      rcases hx with rfl | hx
      · have := h.clean (hQ q).1 c (List.mem_of_getElem? hi)
        simp only
        rw [← hcg, ← this, Nat.or_self]
      · exact h.clean (hQ q).1 x hx.1
  | @newer i c hi hce hcg =>
    have hrow : a.rows e.idx = some c.toRow := by rw [h.rows, ← hce, cellAt_mem h.ok hi]; rfl
    refine key ?_ ?_ ?_
    · unfold StoSpec.accepts; rw [hrow]; show decide (c.gen ≤ e.gen) = true; simp; omega
    · intro j
      have := cellAt_set h.ok hi (d := { c with
          id := ⟨c.id.idx, c.id.gen ||| e.gen⟩, gen := e.gen, val := v
          ins := if s.trkIns then now else c.ins }) rfl h2 j
      rw [this]
      unfold StoSpec.setRow StoSpec.insertRow
      rw [hrow, hce]
      show (if j = e.idx then (if c.gen = e.gen then _ else if c.gen < e.gen then _ else _) else _) = _
      rw [if_neg (c := c.gen = e.gen) (by omega), if_pos hcg]
      split
      · rw [h.trkIns]; rfl
      · exact h.rows j
    · intro q; exact absurd rfl (hQ q).2
  | @older c hc hce hcg =>
    have hrow : a.rows e.idx = some c.toRow := by
      rw [h.rows, (cellAt_some h.ok).2 ⟨hc, hce⟩]; rfl
    refine key ?_ ?_ (fun q => h.clean (hQ q).1)
    · unfold StoSpec.accepts; rw [hrow]; show decide (c.gen ≤ e.gen) = false; simp; omega
    · intro j
      rw [setRow_self, h.rows]
      unfold StoSpec.insertRow
      rw [hrow]
      show _ = if c.gen = e.gen then _ else if c.gen < e.gen then _ else _
      rw [if_neg (by omega), if_neg (by omega)]

/-! ## Removal and deletion -/

theorem removeRow_rows {P : Prop} {s : SparseSet T} {a : Sto T} {L L' : List (Cell T)} (h : Abs P s a L)
    {sp' : SparseArray} (h2 : SOK sp' L') {e : EId} {r : Option T} (h3 : RemEff L e r L') :
    (∀ j : Nat, StoSpec.setRow a.rows e.idx (StoSpec.removeRow a e) j = (cellAt L' j).map Cell.toRow) ∧
    (∀ c ∈ L', c ∈ L) ∧ r = StoSpec.lookup a.rows e := by
  cases h3 with
  | absent hn =>
    refine ⟨?_, fun c hc => hc, ?_⟩
    · intro j
      rw [setRow_self, h.rows]
      unfold StoSpec.removeRow
      rw [h.rows]
      cases hc : cellAt L e.idx with
      | none => rfl
      | some c =>
        rw [cellAt_some h.ok] at hc
        have := hn c hc.1
        show _ = if c.gen ≤ e.gen then _ else _
        rw [if_neg (fun hh => this ⟨hc.2, hh⟩)]
        rfl
    · unfold StoSpec.lookup
      rw [h.rows]
      cases hc : cellAt L e.idx with
      | none => rfl
      | some c =>
        rw [cellAt_some h.ok] at hc
        have := hn c hc.1
        show _ = if c.gen = e.gen then _ else _
        rw [if_neg (fun hh => this ⟨hc.2, Nat.le_of_eq hh⟩)]
  | @found i c hi hce hcg =>
    have hrow : a.rows e.idx = some c.toRow := by rw [h.rows, ← hce, cellAt_mem h.ok hi]; rfl
    refine ⟨?_, fun x hx => ((swapDel_mem h.ok hi x).1 hx).1, ?_⟩
    · intro j
      rw [cellAt_swapDel h.ok hi h2, hce]
      unfold StoSpec.setRow StoSpec.removeRow
      rw [hrow]
      show (if j = e.idx then (if c.gen ≤ e.gen then _ else _) else _) = _
      rw [if_pos (c := c.gen ≤ e.gen) (by omega)]
      split
      · rfl
      · exact h.rows j
    · unfold StoSpec.lookup; rw [hrow]; show _ = if c.gen = e.gen then _ else _; rw [if_pos hcg]; rfl
  | @stale i c hi hce hcg =>
    have hrow : a.rows e.idx = some c.toRow := by rw [h.rows, ← hce, cellAt_mem h.ok hi]; rfl
    refine ⟨?_, fun x hx => ((swapDel_mem h.ok hi x).1 hx).1, ?_⟩
    · intro j
      rw [cellAt_swapDel h.ok hi h2, hce]
      unfold StoSpec.setRow StoSpec.removeRow
      rw [hrow]
      show (if j = e.idx then (if c.gen ≤ e.gen then _ else _) else _) = _
      rw [if_pos (c := c.gen ≤ e.gen) (by omega)]
      split
      · rfl
      · exact h.rows j
    · unfold StoSpec.lookup; rw [hrow]; show _ = if c.gen = e.gen then _ else _; rw [if_neg (by omega)]

theorem abs_remove {P Q : Prop} {s s' : SparseSet T} {a : Sto T} {L : List (Cell T)} (h : Abs P s a L)
    {e : EId} {now : Nat} {r : Option T} (he : Valid e)
    (hs : s.dynRemove e now = .ok (r, s')) (hQ : Q → P) :
    r = StoSpec.lookup a.rows e ∧ ∃ L', Abs Q s' (StoSpec.step a (.removed e now r)) L' := by
  obtain ⟨r', sp', L', h1, h2, h3⟩ := dynRemove_ok (s := s) h.ok (.inl he.1) now
  rw [h.shape, h1] at hs
  injection hs with hs
  injection hs with hr hs
  subst hr; subst hs
  obtain ⟨hrows, hsub, hl⟩ := removeRow_rows h h2 h3
  refine ⟨hl, L', ?_⟩
  cases r' with
  | none =>
    have := h.vectors h2 hrows (fun q c hc => h.clean (hQ q) c (hsub c hc)) hQ
    simp only [StoSpec.step, Option.isSome_none, Bool.and_false, Bool.false_eq_true, if_false]
    exact this
  | some v =>
    have hf : (if s.trkRem then { s.callRem e v with removalData := s.removalData ++ [(e, now)] }
        else s.callRem e v) =
        { s with
          removalData := if s.trkRem then s.removalData ++ [(e, now)] else s.removalData
          logRem := if s.hookRem then s.logRem ++ [(e, v)] else s.logRem } := by
      rw [callRem_eq]; cases s.trkRem <;> rfl
    simp only
    rw [hf]
    refine h.of_build h2 hrows (fun q c hc => h.clean (hQ q) c (hsub c hc)) hQ ⟨rfl, rfl⟩ ⟨rfl, rfl⟩
      ⟨rfl, rfl⟩ ⟨rfl, rfl⟩ ⟨rfl, rfl⟩ ⟨rfl, rfl⟩ ⟨rfl, rfl⟩ ⟨rfl, rfl⟩ h.insCalls ?_
      (fun q => h.deleted (hQ q)) (fun q => ?_)
    · show (if s.trkRem then _ else _) = if a.trkRem && true then _ else _
      rw [h.trkRem, h.removed, Bool.and_true]
    · show (if s.hookRem then _ else _) = if a.hookRem then _ else _
      rw [h.hookRem, h.remCalls (hQ q)]

theorem noteDel_eq (s : SparseSet T) (now : Nat) (e : EId) (v : T) : s.noteDel now e v =
    { s with
      deletionData := if s.trkDel then s.deletionData ++ [(e, now, v)] else s.deletionData
      logRem := if s.hookRem then s.logRem ++ [(e, v)] else s.logRem } := by
  unfold noteDel; rw [callRem_eq]; cases s; simp only; split <;> rfl

theorem abs_delete {P Q : Prop} {s s' : SparseSet T} {a : Sto T} {L : List (Cell T)} (h : Abs P s a L)
    {e : EId} {now : Nat} {c : Option T} {b : Bool} (he : Valid e) (hc : s.get e = .ok c)
    (hs : s.dynDelete e now = .ok (b, s')) (hQ : Q → P) :
    b = c.isSome ∧ ∃ L', Abs Q s' (StoSpec.step a (.deleted e now c)) L' := by
  obtain ⟨r', sp', L', h1, h2, h3⟩ := dynDelete_ok (s := s) h.ok (.inl he.1) now
  rw [h.shape, h1] at hs
  injection hs with hs
  injection hs with hr hs
  subst hr; subst hs
  obtain ⟨hrows, hsub, hl⟩ := removeRow_rows h h2 h3
  rw [h.get he.1, ← hl] at hc
  injection hc with hc
  subst hc
  refine ⟨rfl, L', ?_⟩
  cases r' with
  | none =>
    exact h.vectors h2 hrows (fun q c hc => h.clean (hQ q) c (hsub c hc)) hQ
  | some v =>
    simp only
    rw [noteDel_eq]
    refine h.of_build h2 hrows (fun q c hc => h.clean (hQ q) c (hsub c hc)) hQ ⟨rfl, rfl⟩ ⟨rfl, rfl⟩
      ⟨rfl, rfl⟩ ⟨rfl, rfl⟩ ⟨rfl, rfl⟩ ⟨rfl, rfl⟩ ⟨rfl, rfl⟩ ⟨rfl, rfl⟩ h.insCalls h.removed
      (fun q => ?_) (fun q => ?_)
    · show (if s.trkDel then _ else _) = if a.trkDel then _ else _
      rw [h.trkDel, h.deleted (hQ q)]
    · show (if s.hookRem then _ else _) = if a.hookRem then _ else _
      rw [h.hookRem, h.remCalls (hQ q)]

/-! ## Writes -/

theorem write_rows {P : Prop} {s : SparseSet T} {a : Sto T} {L : List (Cell T)} (h : Abs P s a L)
    {i : Nat} {c : Cell T} (hi : L[i]? = some c) {e : EId} (hce : c.id.idx = e.idx) (now : Nat) (v : T)
    (h2 : SOK s.sparse (L.set i (c.write s.trkMod now v))) (j : Nat) :
    StoSpec.setRow a.rows e.idx ((a.rows e.idx).map (StoSpec.writeRow a.trkMod now v)) j =
      (cellAt (L.set i (c.write s.trkMod now v)) j).map Cell.toRow := by
  have hrow : a.rows e.idx = some c.toRow := by rw [h.rows, ← hce, cellAt_mem h.ok hi]; rfl
  rw [cellAt_set (d := c.write s.trkMod now v) h.ok hi rfl h2, hce, hrow]
  unfold StoSpec.setRow
  split
  · rw [h.trkMod]; rfl
  · exact h.rows j

theorem write_clean {P Q : Prop} {s : SparseSet T} {a : Sto T} {L : List (Cell T)} (h : Abs P s a L)
    (hQ : Q → P) {i : Nat} {c : Cell T} (hi : L[i]? = some c) (now : Nat) (v : T) :
    Q → ∀ x ∈ L.set i (c.write s.trkMod now v), x.gen = x.id.gen := by
  intro q x hx
  rw [mem_set h.ok hi] at hx
  rcases hx with rfl | hx
  · exact h.clean (hQ q) c (List.mem_of_getElem? hi)
  · exact h.clean (hQ q) x hx.1

theorem abs_write {P Q : Prop} {s : SparseSet T} {a : Sto T} {L : List (Cell T)} (h : Abs P s a L)
    {i : Nat} {c : Cell T} (hi : L[i]? = some c) {e : EId} (hce : c.id.idx = e.idx) (now : Nat) (v : T)
    (hQ : Q → P) :
    Abs Q (build s s.sparse (L.set i (c.write s.trkMod now v)))
      (StoSpec.step a (.wrote [(e, v)] now)) (L.set i (c.write s.trkMod now v)) :=
  have h2 := h.ok.write (d := c.write s.trkMod now v) hi rfl rfl
  h.vectors h2 (write_rows h hi hce now v h2) (write_clean h hQ hi now v) hQ

theorem abs_modify {P Q : Prop} {s s' : SparseSet T} {a : Sto T} {L : List (Cell T)} (h : Abs P s a L)
    {e : EId} {now : Nat} {v : T} (he : Valid e)
    (hs : s.modify e now (fun _ => v) = .ok (true, s')) (hQ : Q → P) :
    ∃ L', Abs Q s' (StoSpec.step a (.wrote [(e, v)] now)) L' := by
  rw [h.shape] at hs
  rcases modify_ok (s := s) h.ok he.1 now (fun _ => v) with ⟨_, h1⟩ | ⟨i, c, hi, hce, _, h1, _⟩
  · rw [h1] at hs; injection hs with hs; injection hs with hs; cases hs
  · rw [h1] at hs
    injection hs with hs
    injection hs with _ hs
    subst hs
    exact ⟨_, abs_write h hi hce now v hQ⟩

/-- When `apply` returns, both entities have a component and they differ. -/
theorem apply_inv {R : Type} {s s' : SparseSet T} {sp : SparseArray} {L : List (Cell T)} (h : SOK sp L)
    {x y : EId} (hx : x.gen < 65535) (hy : y.gen < 65535) {f : T → T → T × R} {now : Nat} {r : R}
    (hs : (build s sp L).apply x y f now = .ok (r, s')) :
    ∃ (i j : Nat) (c d : Cell T), L[i]? = some c ∧ L[j]? = some d ∧ i ≠ j ∧ c.id.idx = x.idx ∧
      c.gen = x.gen ∧ d.id.idx = y.idx ∧ d.gen = y.gen ∧ r = (f c.val d.val).2 ∧
      s' = build s sp (L.set i (c.write s.trkMod now (f c.val d.val).1)) := by
  rcases indexOf_ok (s := s) h x hx with ⟨_, h1⟩ | ⟨i, c, hi, hce, hcg, h1⟩
  · unfold apply at hs; simp only [h1, bind, Except.bind] at hs; cases hs
  · rcases indexOf_ok (s := s) h y hy with ⟨_, h2⟩ | ⟨j, d, hj, hde, hdg, h2⟩
    · unfold apply at hs; simp only [h1, h2, bind, Except.bind] at hs; cases hs
    · by_cases hij : i = j
      · unfold apply at hs
        simp only [h1, h2, bind, Except.bind] at hs
        rw [if_neg (by simp [hij])] at hs; cases hs
      · rw [(apply_ok (s := s) h hi hj hij h1 h2 f now).1] at hs
        injection hs with hs
        injection hs with hr hs
        exact ⟨i, j, c, d, hi, hj, hij, hce, hcg, hde, hdg, hr.symm, hs.symm⟩

theorem applyMut_inv {R : Type} {s s' : SparseSet T} {sp : SparseArray} {L : List (Cell T)} (h : SOK sp L)
    {x y : EId} (hx : x.gen < 65535) (hy : y.gen < 65535) {f : T → T → T × T × R} {now : Nat} {r : R}
    (hs : (build s sp L).applyMut x y f now = .ok (r, s')) :
    ∃ (i j : Nat) (c d : Cell T), L[i]? = some c ∧ L[j]? = some d ∧ i ≠ j ∧ c.id.idx = x.idx ∧
      c.gen = x.gen ∧ d.id.idx = y.idx ∧ d.gen = y.gen ∧ r = (f c.val d.val).2.2 ∧
      s' = build s sp ((L.set i (c.write s.trkMod now (f c.val d.val).1)).set j
          (d.write s.trkMod now (f c.val d.val).2.1)) := by
  rcases indexOf_ok (s := s) h x hx with ⟨_, h1⟩ | ⟨i, c, hi, hce, hcg, h1⟩
  · unfold applyMut at hs; simp only [h1, bind, Except.bind] at hs; cases hs
  · rcases indexOf_ok (s := s) h y hy with ⟨_, h2⟩ | ⟨j, d, hj, hde, hdg, h2⟩
    · unfold applyMut at hs; simp only [h1, h2, bind, Except.bind] at hs; cases hs
    · by_cases hij : i = j
      · unfold applyMut at hs
        simp only [h1, h2, bind, Except.bind] at hs
        rw [if_neg (by simp [hij])] at hs; cases hs
      · rw [(applyMut_ok (s := s) h hi hj hij h1 h2 f now).1] at hs
        injection hs with hs
        injection hs with hr hs
        exact ⟨i, j, c, d, hi, hj, hij, hce, hcg, hde, hdg, hr.symm, hs.symm⟩

/-! ## Retain -/

/-- A visit with the recording closure, cell by cell. -/
theorem visit_recording {σ : Type} (f : σ → EId → T → Option T × Bool × σ) (trk : Bool) (now : Nat) :
    ∀ (order : List (Cell T)) (st : σ) (acc : List (Call T)),
      ∃ (st' : σ) (cs : List (Cell T × Option T × Bool)), cs.map (·.1) = order ∧
        visit (StoSpec.recording f) trk now (st, acc) order =
          ((st', acc ++ cs.map fun x => ⟨x.1.id, x.1.val, x.2.1, x.2.2⟩),
            cs.map fun x => (x.1.writeOpt trk now x.2.1, x.2.2)) := by
  intro order
  induction order with
  | nil => intro st acc; exact ⟨st, [], rfl, by simp [visit]⟩
  | cons c order ih =>
    intro st acc
    obtain ⟨st', cs, h1, h2⟩ := ih (f st c.id c.val).2.2
      (acc ++ [⟨c.id, c.val, (f st c.id c.val).1, (f st c.id c.val).2.1⟩])
    refine ⟨st', (c, (f st c.id c.val).1, (f st c.id c.val).2.1) :: cs, by simp [h1], ?_⟩
    show ((visit _ trk now _ order).1, _ :: (visit _ trk now _ order).2) = _
    have e1 : (StoSpec.recording f (st, acc) c.id c.val).2.2 =
      ((f st c.id c.val).2.2, acc ++ [⟨c.id, c.val, (f st c.id c.val).1, (f st c.id c.val).2.1⟩]) := rfl
    rw [e1, h2]
    simp [StoSpec.recording]

theorem nodup_map_inj {α β} {f : α → β} : ∀ {l : List α}, (l.map f).Nodup → ∀ {a b}, a ∈ l → b ∈ l →
    f a = f b → a = b := by
  intro l
  induction l with
  | nil => intro _ a b ha; cases ha
  | cons x l ih =>
    intro hn a b ha hb he
    rw [List.map_cons, List.nodup_cons] at hn
    rcases List.mem_cons.1 ha with rfl | ha'
    · rcases List.mem_cons.1 hb with rfl | hb'
      · rfl
      · exact absurd (List.mem_map.2 ⟨b, hb', he.symm⟩) hn.1
    · rcases List.mem_cons.1 hb with rfl | hb'
      · exact absurd (List.mem_map.2 ⟨a, ha', he⟩) hn.1
      · exact ih hn.2 ha' hb' he

theorem kept_map {trk : Bool} {now : Nat} (cs : List (Cell T × Option T × Bool)) :
    kept (cs.map fun x => (x.1.writeOpt trk now x.2.1, x.2.2)) =
      (cs.filter (·.2.2)).map fun x => x.1.writeOpt trk now x.2.1 := by
  unfold kept
  induction cs with
  | nil => rfl
  | cons c cs ih =>
    rw [List.map_cons, List.filterMap_cons, List.filter_cons, ih]
    cases c.2.2 <;> simp

theorem dropped_map {trk : Bool} {now : Nat} (cs : List (Cell T × Option T × Bool)) :
    dropped (cs.map fun x => (x.1.writeOpt trk now x.2.1, x.2.2)) =
      (cs.filter (fun x => !x.2.2)).map fun x => x.1.writeOpt trk now x.2.1 := by
  unfold dropped
  induction cs with
  | nil => rfl
  | cons c cs ih =>
    rw [List.map_cons, List.filterMap_cons, List.filter_cons, ih]
    cases c.2.2 <;> simp

theorem noteDels_clean (s : SparseSet T) (now : Nat) : ∀ (cs : List (Cell T)),
    (∀ c ∈ cs, c.gen = c.id.gen) → s.noteDels now cs =
      { s with
        deletionData := if s.trkDel then s.deletionData ++ cs.map (fun c => (c.id, now, c.val))
          else s.deletionData
        logRem := if s.hookRem then s.logRem ++ cs.map (fun c => (c.id, c.val)) else s.logRem } := by
  intro cs
  induction cs generalizing s with
  | nil => intro _; unfold noteDels; cases s; simp
  | cons c cs ih =>
    intro h
    unfold noteDels at ih ⊢
    rw [List.foldl_cons, if_pos (h c (by simp)), ih _ (fun x hx => h x (by simp [hx])), noteDel_eq]
    cases s; simp only; rename_i trkDel _ _ _ hookRem _ _; cases trkDel <;> cases hookRem <;> simp

theorem noteDels_scalars (s : SparseSet T) (now : Nat) (cs : List (Cell T)) :
    let t := s.noteDels now cs
    t.trkIns = s.trkIns ∧ t.trkMod = s.trkMod ∧ t.trkDel = s.trkDel ∧ t.trkRem = s.trkRem ∧
    t.lastInsert = s.lastInsert ∧ t.lastModified = s.lastModified ∧ t.hookIns = s.hookIns ∧
    t.hookRem = s.hookRem ∧ t.logIns = s.logIns ∧ t.removalData = s.removalData := by
  simp only
  unfold noteDels
  induction cs generalizing s with
  | nil => simp
  | cons c cs ih =>
    rw [List.foldl_cons]
    obtain ⟨a1, a2, a3, a4, a5, a6, a7, a8, a9, a10⟩ :=
      ih (if c.gen = c.id.gen then s.noteDel now c.id c.val else s)
    rw [a1, a2, a3, a4, a5, a6, a7, a8, a9, a10]
    split
    · rw [noteDel_eq]; simp
    · simp

theorem writeOpt_id (trk : Bool) (now : Nat) (c : Cell T) (w : Option T) :
    (c.writeOpt trk now w).id = c.id ∧ (c.writeOpt trk now w).gen = c.gen ∧
      (c.writeOpt trk now w).val = w.getD c.val := by
  cases w <;> exact ⟨rfl, rfl, rfl⟩

theorem abs_retainMut {P Q : Prop} {s s' : SparseSet T} {a : Sto T} {L : List (Cell T)} (h : Abs P s a L)
    {σ : Type} {st st' : σ} {f : σ → EId → T → Option T × Bool × σ} {now : Nat} {calls : List (Call T)}
    (hs : s.retainMut now (st, []) (StoSpec.recording f) = .ok ((st', calls), s')) (hQ : Q → P) :
    (∃ (order : List (Cell T)), order.Perm L ∧
      calls.map (fun c => (c.id, c.given)) = order.map (fun c => (c.id, c.val))) ∧
    ∃ L', Abs Q s' (StoSpec.step a (.retained now calls)) L' := by
  unfold retainMut at hs
  rw [h.shape] at hs
  obtain ⟨sp', L', order, h1, h2, h3, h4⟩ := retainMutLoop_ok (StoSpec.recording f) now L.length s s.sparse
    L (st, []) 0 h.ok (by simp)
  simp only [build_dense, List.length_map] at hs
  rw [List.drop_zero] at h1
  obtain ⟨st1, cs, hcs, hv⟩ := visit_recording f s.trkMod now order st []
  rw [h2, hv] at hs
  rw [hv, List.take_zero, List.nil_append, kept_map] at h4
  injection hs with hs
  injection hs with hs hs'
  injection hs with _ hcalls
  subst hs'
  simp only [List.nil_append] at hcalls
  refine ⟨⟨order, h1, ?_⟩, L', ?_⟩
  · rw [← hcalls, ← hcs]; simp
  have hmemcs : ∀ x ∈ cs, x.1 ∈ L := by
    intro x hx
    exact h1.mem_iff.1 (hcs ▸ List.mem_map.2 ⟨x, hx, rfl⟩)
  have hndcs : (cs.map (fun x => x.1.id.idx)).Nodup := by
    have : cs.map (fun x => x.1.id.idx) = order.map (·.id.idx) := by rw [← hcs]; simp
    rw [this]
    exact (h1.map _).nodup_iff.2 h.ok.nodup
  have hL' : ∀ d, d ∈ L' ↔ ∃ x ∈ cs, x.2.2 = true ∧ x.1.writeOpt s.trkMod now x.2.1 = d := by
    intro d
    rw [h4.mem_iff, List.mem_map]
    constructor
    · rintro ⟨x, hx, he⟩; rw [List.mem_filter] at hx; exact ⟨x, hx.1, hx.2, he⟩
    · rintro ⟨x, hx, hk, he⟩; exact ⟨x, List.mem_filter.2 ⟨hx, hk⟩, he⟩
  have hclean : Q → ∀ x ∈ cs, x.1.gen = x.1.id.gen := fun q x hx => h.clean (hQ q) x.1 (hmemcs x hx)
  have hsc := noteDels_scalars s now (dropped (cs.map fun x => (x.1.writeOpt s.trkMod now x.2.1, x.2.2)))
  simp only at hsc
  obtain ⟨a1, a2, a3, a4, a5, a6, a7, a8, a9, a10⟩ := hsc
  have hnd : Q → s.noteDels now (dropped (cs.map fun x => (x.1.writeOpt s.trkMod now x.2.1, x.2.2))) =
      _ := fun q => noteDels_clean s now _ (by
        intro c hc
        rw [dropped_map] at hc
        obtain ⟨x, hx, rfl⟩ := List.mem_map.1 hc
        rw [List.mem_filter] at hx
        rw [(writeOpt_id _ _ _ _).1, (writeOpt_id _ _ _ _).2.1]
        exact hclean q x hx.1)
  have hrej : StoSpec.rejected calls =
      (cs.filter (fun x => !x.2.2)).map fun x => ⟨x.1.id, x.1.val, x.2.1, x.2.2⟩ := by
    rw [← hcalls]; unfold StoSpec.rejected
    rw [List.filter_map]; rfl
  refine h.of_build h3 ?_ ?_ hQ ⟨a1, rfl⟩ ⟨a2, rfl⟩ ⟨a3, rfl⟩ ⟨a4, rfl⟩ ⟨a5, rfl⟩ ⟨a6, rfl⟩ ⟨a7, rfl⟩
    ⟨a8, rfl⟩ (a9.trans h.insCalls) (a10.trans h.removed) ?_ ?_
  · intro j
    show (match calls.find? (fun c => c.id.idx == j) with
        | some c => StoSpec.callRow a.trkMod now c (a.rows j)
        | none => a.rows j) = _
    cases hf : calls.find? (fun c => c.id.idx == j) with
    | none =>
      rw [List.find?_eq_none] at hf
      have hno : ∀ c ∈ L, c.id.idx ≠ j := by
        intro c hc he
        have hco : c ∈ order := h1.mem_iff.2 hc
        rw [← hcs, List.mem_map] at hco
        obtain ⟨x, hx, rfl⟩ := hco
        refine hf ⟨x.1.id, x.1.val, x.2.1, x.2.2⟩ ?_ (by simpa using he)
        rw [← hcalls]
        exact List.mem_map.2 ⟨x, hx, rfl⟩
      rw [h.rows, cellAt_none.2 hno]
      have : cellAt L' j = none := by
        rw [cellAt_none]
        intro d hd he
        obtain ⟨x, hx, _, rfl⟩ := (hL' d).1 hd
        rw [(writeOpt_id _ _ _ _).1] at he
        exact hno x.1 (hmemcs x hx) he
      rw [this]
    | some k =>
      have hk := List.mem_of_find?_eq_some hf
      have hkj : k.id.idx = j := by simpa using List.find?_some hf
      rw [← hcalls, List.mem_map] at hk
      obtain ⟨x, hx, rfl⟩ := hk
      simp only at hkj
      have hrow : a.rows j = some x.1.toRow := by
        rw [h.rows, (cellAt_some h.ok).2 ⟨hmemcs x hx, hkj⟩]; rfl
      simp only [StoSpec.callRow]
      rw [hrow]
      cases hkeep : x.2.2 with
      | true =>
        have : cellAt L' j = some (x.1.writeOpt s.trkMod now x.2.1) := by
          rw [cellAt_some h3]
          exact ⟨(hL' _).2 ⟨x, hx, hkeep, rfl⟩, by rw [(writeOpt_id _ _ _ _).1]; exact hkj⟩
        rw [this]
        simp only [if_true]
        cases x.2.1 with
        | none => rfl
        | some w => rw [h.trkMod]; rfl
      | false =>
        simp only [Bool.false_eq_true, if_false]
        have : cellAt L' j = none := by
          rw [cellAt_none]
          intro d hd he
          obtain ⟨y, hy, hky, rfl⟩ := (hL' d).1 hd
          rw [(writeOpt_id _ _ _ _).1] at he
          have := nodup_map_inj hndcs hx hy (hkj.trans he.symm)
          subst this
          rw [hkeep] at hky; cases hky
        rw [this]; rfl
  · intro q d hd
    obtain ⟨x, hx, _, rfl⟩ := (hL' d).1 hd
    rw [(writeOpt_id _ _ _ _).1, (writeOpt_id _ _ _ _).2.1]
    exact hclean q x hx
  · intro q
    rw [hnd q]
    show (if s.trkDel then _ else _) = if a.trkDel then _ else _
    rw [h.trkDel, h.deleted (hQ q), hrej, dropped_map, List.map_map, List.map_map]
    congr 2
    refine List.map_congr_left ?_
    intro x _
    simp only [Function.comp, (writeOpt_id _ _ _ _).1, (writeOpt_id _ _ _ _).2.2]
    rfl
  · intro q
    rw [hnd q]
    show (if s.hookRem then _ else _) = if a.hookRem then _ else _
    rw [h.hookRem, h.remCalls (hQ q), hrej, dropped_map, List.map_map, List.map_map]
    congr 2
    refine List.map_congr_left ?_
    intro x _
    simp only [Function.comp, (writeOpt_id _ _ _ _).1, (writeOpt_id _ _ _ _).2.2]
    rfl

/-! ## All steps -/

theorem zip_rows (s : SparseSet T) (sp) (L : List (Cell T)) :
    (build s sp L).dense.zip (build s sp L).data = L.map fun c => (c.id, c.val) := by
  rw [build_dense, build_data, zip_map]

theorem abs_step {P Q : Prop} {s s' : SparseSet T} {a : Sto T} {L : List (Cell T)} {ev : Event T}
    (h : Abs P s a L) (hs : Step s ev s') (hQ : Q → P)
    (hev : Q → ∀ e v now, ev ≠ .inserted e v now .otherComponentOverride) :
    ∃ L', Abs Q s' (StoSpec.step a ev) L' := by
  cases hs with
  | insert he hi => exact abs_insert h he hi (fun q => ⟨hQ q, fun hr => hev q _ _ _ (by rw [hr])⟩)
  | remove he hr => exact (abs_remove h he hr hQ).2
  | delete he hg hd => exact (abs_delete h he hg hd hQ).2
  | write he hw => exact abs_modify h he hw hQ
  | apply ha hb hw =>
    rw [h.shape] at hw
    obtain ⟨i, j, c, d, hi, hj, hij, hce, _, _, _, hr, hs'⟩ := apply_inv h.ok ha.1 hb.1 hw
    subst hs'
    rw [hr]
    exact ⟨_, abs_write h hi hce _ _ hQ⟩
  | @applyMut x y now v w _ g ha hb hw =>
    rw [h.shape] at hw
    obtain ⟨i, j, c, d, hi, hj, hij, hce, _, hde, _, hr, hs'⟩ := applyMut_inv h.ok ha.1 hb.1 hw
    subst hs'
    have h1 := abs_write (Q := P) h hi hce now (g c.val d.val).1 id
    have hj1 : (L.set i (c.write s.trkMod now (g c.val d.val).1))[j]? = some d := by
      rw [List.getElem?_set_ne hij]; exact hj
    have h2 := abs_write (Q := Q) h1 hj1 hde now (g c.val d.val).2 hQ
    simp only at hr
    rw [← hr] at h2
    rw [← hr]
    exact ⟨_, h2⟩
  | @sort perm _ hp hw =>
    rw [h.shape] at hw hp
    rw [build_data, List.length_map] at hp
    obtain ⟨sp', L', h1, h2, _, _, h3⟩ := sortWith_ok (s := s) h.ok hp
    rw [h1] at hw
    injection hw with hw
    subst hw
    refine ⟨L', h.vectors h2 ?_ (fun q c hc => h.clean (hQ q) c ((h3 c).1 hc)) hQ⟩
    intro j
    rw [h.rows, cellAt_congr h.ok h2 (fun c _ => h3 c)]
  | @retain now _ calls σ st st' f hw =>
    rw [retain_eq_retainMut] at hw
    exact (abs_retainMut (f := fun st e c => (none, (f st e c).1, (f st e c).2)) h hw hQ).2
  | retainMut hw => exact (abs_retainMut h hw hQ).2
  | @clear now _ hw =>
    have hz := congrArg (fun s => s.dense.zip s.data) h.shape
    simp only [zip_rows] at hz
    rw [h.shape] at hw
    obtain ⟨sp', h1, h2⟩ := clear_ok (s := s) h.ok now
    rw [h1] at hw
    injection hw with hw
    subst hw
    refine ⟨[], h.of_build h2 (fun _ => rfl) (by simp) hQ ⟨rfl, rfl⟩ ⟨rfl, rfl⟩
      ⟨rfl, rfl⟩ ⟨rfl, rfl⟩ ⟨rfl, rfl⟩ ⟨rfl, rfl⟩ ⟨rfl, rfl⟩ ⟨rfl, rfl⟩ h.insCalls h.removed ?_
      (fun q => h.remCalls (hQ q))⟩
    intro q
    show (if s.trkDel then _ else _) = if a.trkDel then _ else _
    rw [h.trkDel, h.deleted (hQ q), hz, List.map_map]
    rfl
  | @drain now d _ hw =>
    rw [h.shape] at hw
    obtain ⟨sp', h1, h2⟩ := drain_ok (s := s) h.ok now
    rw [h1] at hw
    injection hw with hw
    injection hw with hd hw
    subst hw; subst hd
    refine ⟨[], h.of_build h2 (fun _ => rfl) (by simp) hQ ⟨rfl, rfl⟩ ⟨rfl, rfl⟩
      ⟨rfl, rfl⟩ ⟨rfl, rfl⟩ ⟨rfl, rfl⟩ ⟨rfl, rfl⟩ ⟨rfl, rfl⟩ ⟨rfl, rfl⟩ h.insCalls ?_
      (fun q => h.deleted (hQ q)) (fun q => h.remCalls (hQ q))⟩
    show (if s.trkRem then _ else _) = if a.trkRem then _ else _
    rw [h.trkRem, h.removed, zip_map, List.map_map]
    rfl
  | @bulk start stamp vs _ hf hm hw =>
    rw [h.shape] at hw hf
    have hfr : ∀ c ∈ L, c.id.idx < start := fun c hc => hf c.id (List.mem_map.2 ⟨c, hc, rfl⟩)
    by_cases hne : vs = []
    · subst hne
      exfalso
      unfold bulkInsert at hw
      simp at hw
    · obtain ⟨sp', h1, h2⟩ := bulkInsert_ok (s := s) h.ok start stamp vs hne hm hfr
      rw [h1] at hw
      injection hw with hw
      subst hw
      refine ⟨_, h.vectors h2 ?_ ?_ hQ⟩
      · intro j
        split
        · rename_i hj
          split
          · rename_i v hv
            have : cellAt (L ++ bulkCells start stamp 0 vs) j = some ⟨⟨start + (j - start), 0⟩, 0, v, stamp, 0⟩ := by
              rw [cellAt_some h2]
              refine ⟨List.mem_append.2 (.inr ?_), ?_⟩
              · refine List.mem_of_getElem? (i := j - start) ?_
                rw [bulkCells_get, hv]; simp
              · show start + (j - start) = j
                omega
            rw [this]; rfl
          · rename_i hv
            rw [h.rows]
            congr 1
            refine (cellAt_congr h.ok h2 ?_).symm
            intro c hc
            rw [List.mem_append]
            constructor
            · rintro (hx | hx)
              · exact hx
              · obtain ⟨k, w, hk, rfl⟩ := bulkCells_mem hx
                simp only at hc
                have : j - start = k := by omega
                rw [this, hk] at hv; cases hv
            · exact .inl
        · rename_i hj
          rw [h.rows]
          congr 1
          refine (cellAt_congr h.ok h2 ?_).symm
          intro c hc
          rw [List.mem_append]
          constructor
          · rintro (hx | hx)
            · exact hx
            · obtain ⟨k, w, hk, rfl⟩ := bulkCells_mem hx
              simp only at hc
              omega
          · exact .inl
      · intro q c hc
        rcases List.mem_append.1 hc with hc | hc
        · exact h.clean (hQ q) c hc
        · obtain ⟨k, w, hk, rfl⟩ := bulkCells_mem hc; rfl
  | trackInsertion =>
    have e1 : s.trackInsertion = build { s with trkIns := true } s.sparse
        (if s.trkIns then L else L.map fun c => { c with ins := 0 }) := by
      conv => lhs; rw [h.shape]
      exact trackInsertion_ok s s.sparse L
    rw [e1]
    refine ⟨_, rfl, ?_, ?_, rfl, h.trkMod, h.trkDel, h.trkRem, h.lastInsert, h.lastModified, h.hookIns,
      h.hookRem, h.insCalls, h.removed, ?_, fun q => h.deleted (hQ q), fun q => h.remCalls (hQ q)⟩
    · show SOK s.sparse _
      split
      · exact h.ok
      · exact h.ok.mapStamp _ (fun _ => ⟨rfl, rfl⟩)
    · intro j
      show (if a.trkIns then a.rows else _) j = _
      rw [← h.trkIns]
      split
      · exact h.rows j
      · show Option.map _ (a.rows j) = _
        rw [h.rows]
        unfold cellAt
        rw [List.find?_map]
        show _ = Option.map _ (Option.map _ (List.find? (fun c => c.id.idx == j) L))
        cases List.find? (fun c => c.id.idx == j) L <;> rfl
    · intro q
      split
      · exact h.clean (hQ q)
      · intro c hc
        obtain ⟨d, hd, rfl⟩ := List.mem_map.1 hc
        exact h.clean (hQ q) d hd
  | trackModification =>
    have e1 : s.trackModification = build { s with trkMod := true } s.sparse
        (if s.trkMod then L else L.map fun c => { c with mod := 0 }) := by
      conv => lhs; rw [h.shape]
      exact trackModification_ok s s.sparse L
    rw [e1]
    refine ⟨_, rfl, ?_, ?_, h.trkIns, rfl, h.trkDel, h.trkRem, h.lastInsert, h.lastModified, h.hookIns,
      h.hookRem, h.insCalls, h.removed, ?_, fun q => h.deleted (hQ q), fun q => h.remCalls (hQ q)⟩
    · show SOK s.sparse _
      split
      · exact h.ok
      · exact h.ok.mapStamp _ (fun _ => ⟨rfl, rfl⟩)
    · intro j
      show (if a.trkMod then a.rows else _) j = _
      rw [← h.trkMod]
      split
      · exact h.rows j
      · show Option.map _ (a.rows j) = _
        rw [h.rows]
        unfold cellAt
        rw [List.find?_map]
        show _ = Option.map _ (Option.map _ (List.find? (fun c => c.id.idx == j) L))
        cases List.find? (fun c => c.id.idx == j) L <;> rfl
    · intro q
      split
      · exact h.clean (hQ q)
      · intro c hc
        obtain ⟨d, hd, rfl⟩ := List.mem_map.1 hc
        exact h.clean (hQ q) d hd
  | trackDeletion =>
    refine ⟨L, ?_, h.ok, h.rows, h.trkIns, h.trkMod, rfl, h.trkRem, h.lastInsert, h.lastModified, h.hookIns,
      h.hookRem, h.insCalls, h.removed, fun q => h.clean (hQ q), fun q => h.deleted (hQ q),
      fun q => h.remCalls (hQ q)⟩
    exact congrArg trackDeletion h.shape
  | trackRemoval =>
    refine ⟨L, ?_, h.ok, h.rows, h.trkIns, h.trkMod, h.trkDel, rfl, h.lastInsert, h.lastModified, h.hookIns,
      h.hookRem, h.insCalls, h.removed, fun q => h.clean (hQ q), fun q => h.deleted (hQ q),
      fun q => h.remCalls (hQ q)⟩
    exact congrArg trackRemoval h.shape
  | @clearInserted now =>
    refine ⟨L, ?_, h.ok, h.rows, h.trkIns, h.trkMod, h.trkDel, h.trkRem, rfl, h.lastModified, h.hookIns,
      h.hookRem, h.insCalls, h.removed, fun q => h.clean (hQ q), fun q => h.deleted (hQ q),
      fun q => h.remCalls (hQ q)⟩
    exact congrArg (fun s => s.clearAllInserted now) h.shape
  | @clearModified now =>
    refine ⟨L, ?_, h.ok, h.rows, h.trkIns, h.trkMod, h.trkDel, h.trkRem, h.lastInsert, rfl, h.hookIns,
      h.hookRem, h.insCalls, h.removed, fun q => h.clean (hQ q), fun q => h.deleted (hQ q),
      fun q => h.remCalls (hQ q)⟩
    exact congrArg (fun s => s.clearAllModified now) h.shape
  | clearDeleted =>
    refine ⟨L, ?_, h.ok, h.rows, h.trkIns, h.trkMod, h.trkDel, h.trkRem, h.lastInsert, h.lastModified,
      h.hookIns, h.hookRem, h.insCalls, h.removed, fun q => h.clean (hQ q), fun q => rfl,
      fun q => h.remCalls (hQ q)⟩
    exact congrArg clearAllDeleted h.shape
  | clearRemoved =>
    refine ⟨L, ?_, h.ok, h.rows, h.trkIns, h.trkMod, h.trkDel, h.trkRem, h.lastInsert, h.lastModified,
      h.hookIns, h.hookRem, h.insCalls, rfl, fun q => h.clean (hQ q), fun q => h.deleted (hQ q),
      fun q => h.remCalls (hQ q)⟩
    exact congrArg clearAllRemoved h.shape
  | clearBoth =>
    refine ⟨L, ?_, h.ok, h.rows, h.trkIns, h.trkMod, h.trkDel, h.trkRem, h.lastInsert, h.lastModified,
      h.hookIns, h.hookRem, h.insCalls, rfl, fun q => h.clean (hQ q), fun q => rfl,
      fun q => h.remCalls (hQ q)⟩
    exact congrArg storageClearAllRemovedAndDeleted h.shape
  | @clearOlder t =>
    refine ⟨L, ?_, h.ok, h.rows, h.trkIns, h.trkMod, h.trkDel, h.trkRem, h.lastInsert, h.lastModified,
      h.hookIns, h.hookRem, h.insCalls, ?_, fun q => h.clean (hQ q), fun q => ?_,
      fun q => h.remCalls (hQ q)⟩
    · exact congrArg (fun s => s.clearAllRemovedAndDeletedOlderThan t) h.shape
    · show s.removalData.filter _ = a.removed.filter _
      rw [h.removed]
    · show s.deletionData.filter _ = a.deleted.filter _
      rw [h.deleted (hQ q)]
  | @clearDeletedOlder t =>
    refine ⟨L, ?_, h.ok, h.rows, h.trkIns, h.trkMod, h.trkDel, h.trkRem, h.lastInsert, h.lastModified,
      h.hookIns, h.hookRem, h.insCalls, h.removed, fun q => h.clean (hQ q), fun q => ?_,
      fun q => h.remCalls (hQ q)⟩
    · exact congrArg (fun s => s.clearAllDeletedOlderThan t) h.shape
    · show s.deletionData.filter _ = a.deleted.filter _
      rw [h.deleted (hQ q)]
  | @clearRemovedOlder t =>
    refine ⟨L, ?_, h.ok, h.rows, h.trkIns, h.trkMod, h.trkDel, h.trkRem, h.lastInsert, h.lastModified,
      h.hookIns, h.hookRem, h.insCalls, ?_, fun q => h.clean (hQ q), fun q => h.deleted (hQ q),
      fun q => h.remCalls (hQ q)⟩
    · exact congrArg (fun s => s.clearAllRemovedOlderThan t) h.shape
    · show s.removalData.filter _ = a.removed.filter _
      rw [h.removed]
  | @onInsertion b =>
    refine ⟨L, ?_, h.ok, h.rows, h.trkIns, h.trkMod, h.trkDel, h.trkRem, h.lastInsert, h.lastModified,
      rfl, h.hookRem, h.insCalls, h.removed, fun q => h.clean (hQ q), fun q => h.deleted (hQ q),
      fun q => h.remCalls (hQ q)⟩
    exact congrArg (fun s => s.setOnInsertion b) h.shape
  | @onRemoval b =>
    refine ⟨L, ?_, h.ok, h.rows, h.trkIns, h.trkMod, h.trkDel, h.trkRem, h.lastInsert, h.lastModified,
      h.hookIns, rfl, h.insCalls, h.removed, fun q => h.clean (hQ q), fun q => h.deleted (hQ q),
      fun q => h.remCalls (hQ q)⟩
    exact congrArg (fun s => s.setOnRemoval b) h.shape
  | reserve h1 h2 hle hr =>
    unfold SparseSet.bulkReserve at hr
    rw [h1, h2] at hr
    obtain ⟨sp, g1, g2, g3, _⟩ := SparseArray.bulkAllocate_look h.ok.wfa hle
    simp only [g1, bind, Except.bind, Except.ok.injEq] at hr
    subst hr
    refine ⟨L, ?_, ⟨g2, fun i c hc => by rw [g3]; exact h.ok.hit i c hc, fun j hj => by rw [g3]; exact h.ok.miss j hj, h.ok.cells⟩,
      h.rows, h.trkIns, h.trkMod, h.trkDel, h.trkRem, h.lastInsert, h.lastModified, h.hookIns, h.hookRem, h.insCalls, h.removed,
      fun q => h.clean (hQ q), fun q => h.deleted (hQ q), fun q => h.remCalls (hQ q)⟩
    exact congrArg (fun s => { s with sparse := sp }) h.shape

/-- Every execution refines the specification. -/
theorem run_abs {a b c d : Bool} {h : List (Event T)} {s : SparseSet T}
    (hr : Run (SparseSet.new a b c d) h s) :
    ∃ L, Abs (StoSpec.NoTakeover h) s (StoSpec.after (Sto.init a b c d) h) L := by
  induction hr with
  | nil =>
    refine ⟨[], ?_⟩
    have := abs_new (T := T) a b c d
    exact { this with clean := fun _ => this.clean trivial, deleted := fun _ => rfl, remCalls := fun _ => rfl }
  | @snoc h s ev s' _ hs ih =>
    obtain ⟨L, hL⟩ := ih
    obtain ⟨L', hL'⟩ := abs_step (Q := StoSpec.NoTakeover (h ++ [ev])) hL hs
      (fun q e v now hm => q e v now (List.mem_append.2 (.inl hm)))
      (fun q e v now he => q e v now (List.mem_append.2 (.inr (by rw [he]; simp))))
    refine ⟨L', ?_⟩
    unfold StoSpec.after at hL' ⊢
    rw [List.foldl_append]
    exact hL'

end Verif.SparseSet
