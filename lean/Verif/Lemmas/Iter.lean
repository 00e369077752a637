import Verif.Spec.Iter
import Verif.Lemmas.Tracking
import Verif.Lemmas.Lives

/-! # Lemmas: windows, and what one member of a query sees of one entity -/
namespace Verif.IterSpec
open StoSpec TrkSpec Iter
open SparseSet (Abs Cell cellAt cellAt_none cellAt_some cellAt_mem build)
variable {V : Type}

theorem rowAt_eq {a : Sto V} {e : EId} {r : Row V} :
    rowAt a e = some r ↔ a.rows e.idx = some r ∧ r.gen = e.gen := by
  unfold rowAt
  cases a.rows e.idx with
  | none => simp
  | some x =>
    simp only
    split
    · rename_i h
      simp only [Option.some.injEq]
      constructor
      · rintro rfl; exact ⟨rfl, h⟩
      · exact fun h => h.1
    · rename_i h
      simp only [Option.some.injEq]
      constructor
      · intro h; cases h
      · rintro ⟨rfl, h'⟩; exact absurd h' h

/-- Windows of views find what the storage finds. -/
theorem indexOf_ofView (w : Win V) (hw : w.sparseLen = w.set.sparse.length) (e : EId) :
    w.indexOf e = w.set.indexOf e := by
  unfold Win.indexOf Win.sparseIndex SparseSet.indexOf SparseArray.get
  rw [hw]
  by_cases h : e.bucket < w.set.sparse.length
  · rw [if_pos h]
    have : w.set.sparse[e.bucket]? = some (w.set.sparse[e.bucket]'h) := List.getElem?_eq_getElem h
    rw [this]
    cases w.set.sparse[e.bucket]'h with
    | none => rfl
    | some p =>
      simp only
      cases p[e.bucketIndex]? with
      | none => rfl
      | some x => rfl
  · rw [if_neg h, List.getElem?_eq_none (by omega)]
    rfl

/-- What one view knows of a storage whose cells are `L`. -/
structure Looks (w : Win V) (a : Sto V) (L : List (Cell V)) : Prop where
  dense : w.set.dense = L.map (·.id)
  nodup : w.set.dense.Nodup
  valid : ∀ e ∈ w.set.dense, Valid e
  row : ∀ (i : Nat) (c : Cell V), L[i]? = some c → rowAt a c.id = some c.toRow
  find : ∀ e, Valid e → (rowAt a e = none ∧ w.indexOf e = .ok none) ∨
    ∃ (i : Nat) (c : Cell V), L[i]? = some c ∧ c.id = e ∧ w.indexOf e = .ok (some i)
  mem : ∀ e r, rowAt a e = some r → e ∈ w.set.dense
  data : ∀ (i : Nat) (c : Cell V), L[i]? = some c → w.data i = .ok c.val
  ins : a.trkIns = true → ∀ (i : Nat) (c : Cell V), L[i]? = some c →
    w.insertedAt i = .ok (decide (InWindow c.ins w.lastInsertion w.current))
  mod : a.trkMod = true → ∀ (i : Nat) (c : Cell V), L[i]? = some c →
    w.modifiedAt i = .ok (decide (InWindow c.mod w.lastModification w.current))

theorem isWithin_dec (t l c : Nat) : Tracking.isWithin t l c = decide (InWindow t l c) := by
  rw [Bool.eq_iff_iff, isWithin_iff]; simp

/-- A storage holds less than `usize::MAX` components: their indices are distinct. -/
theorem Reads.short {w : Win V} {a : Sto V} (h : Reads w a) : w.set.dense.length < usizeMax := by
  obtain ⟨L, hL⟩ := h.2.abs
  have h1 := SparseSet.nodup_le hL.ok.nodup (n := EId.INDEX_MASK) (by
    intro x hx
    obtain ⟨c, hc, rfl⟩ := List.mem_map.1 hx
    exact (hL.ok.cells c hc).2.2.2)
  have h2 : w.set.dense = L.map (·.id) := by rw [hL.shape]; rfl
  rw [h2, List.length_map]
  rw [List.length_map] at h1
  have h3 : EId.INDEX_MASK < usizeMax := by decide
  omega

theorem Reads.looks {w : Win V} {a : Sto V} (h : Reads w a) : ∃ L, Looks w a L := by
  obtain ⟨⟨v, hv⟩, hl⟩ := h
  obtain ⟨L, hL⟩ := hl.abs
  have hsp : w.sparseLen = w.set.sparse.length := by rw [hv]; rfl
  have hcl := hL.clean trivial
  have hsh := hL.shape
  have hdense : w.set.dense = L.map (·.id) := by rw [hsh]; rfl
  have hrow : ∀ (i : Nat) (c : Cell V), L[i]? = some c → rowAt a c.id = some c.toRow := by
    intro i c hi
    rw [rowAt_eq]
    exact ⟨row_of_cell hL hi, hcl c (List.mem_of_getElem? hi)⟩
  have hcell : ∀ e r, rowAt a e = some r → ∃ c ∈ L, c.id = e := by
    intro e r hr
    rw [rowAt_eq, hL.rows] at hr
    cases hc : cellAt L e.idx with
    | none => rw [hc] at hr; cases hr.1
    | some c =>
      rw [hc] at hr
      rw [cellAt_some hL.ok] at hc
      refine ⟨c, hc.1, ?_⟩
      have h1 : c.toRow = r := Option.some.inj hr.1
      have h2 : c.gen = e.gen := by rw [← hr.2, ← h1]; rfl
      rw [hcl c hc.1] at h2
      cases hcid : c.id; cases e
      rw [hcid] at hc h2
      simp only at hc h2
      rw [hc.2, h2]
  refine ⟨L, hdense, ?_, ?_, hrow, ?_, ?_, ?_, ?_, ?_⟩
  · rw [hdense]
    have := hL.ok.nodup
    rw [List.nodup_iff_pairwise_ne, List.pairwise_map] at this ⊢
    exact this.imp fun h h' => h (by rw [h'])
  · intro e he
    rw [hdense, List.mem_map] at he
    obtain ⟨c, hc, rfl⟩ := he
    have := hL.ok.cells c hc
    exact ⟨by rw [← hcl c hc]; exact this.1, this.2.2.2⟩
  · intro e he
    rcases SparseSet.indexOf_ok (s := w.set) hL.ok e he.1 with ⟨h1, h2⟩ | ⟨i, c, hi, hce, hcg, h2⟩
    · left
      rw [← hsh] at h2
      refine ⟨?_, by rw [indexOf_ofView w hsp, h2]⟩
      cases hr : rowAt a e with
      | none => rfl
      | some r =>
        obtain ⟨c, hc, rfl⟩ := hcell e r hr
        exact absurd ⟨rfl, hcl c hc⟩ (h1 c hc)
    · right
      rw [← hsh] at h2
      refine ⟨i, c, hi, ?_, by rw [indexOf_ofView w hsp, h2]⟩
      have := hcl c (List.mem_of_getElem? hi)
      cases hcid : c.id; cases e
      rw [hcid] at hce this
      simp only at hce this hcg
      rw [hce, ← hcg, this]
  · intro e r hr
    obtain ⟨c, hc, rfl⟩ := hcell e r hr
    rw [hdense]; exact List.mem_map_of_mem hc
  · intro i c hi
    unfold Win.data
    rw [hsh]
    exact SparseSet.vecGetU_map (fun x => x.val) hi
  · intro ht i c hi
    unfold Win.insertedAt
    have : w.set.insertionData = L.map (·.ins) := by
      rw [hsh]; unfold build; simp only; rw [hL.trkIns, ht, if_pos rfl]
    rw [this, SparseSet.vecGetU_map (fun x => x.ins) hi, ← isWithin_dec]
    rfl
  · intro ht i c hi
    unfold Win.modifiedAt
    have : w.set.modificationData = L.map (·.mod) := by
      rw [hsh]; unfold build; simp only; rw [hL.trkMod, ht, if_pos rfl]
    rw [this, SparseSet.vecGetU_map (fun x => x.mod) hi, ← isWithin_dec]
    rfl

theorem Looks.at_pos {w : Win V} {a : Sto V} {L : List (Cell V)} (h : Looks w a L) {i : Nat} {e : EId}
    (hi : w.set.dense[i]? = some e) : ∃ c, L[i]? = some c ∧ c.id = e := by
  rw [h.dense, List.getElem?_map, Option.map_eq_some_iff] at hi
  exact hi

theorem test_ok {w : Win V} {a : Sto V} {L : List (Cell V)} (h : Looks w a L) (k : Flag) (ht : Tracks k a)
    {i : Nat} {c : Cell V} (hi : L[i]? = some c) : k.test w i = .ok (decide (Holds k w c.toRow)) := by
  cases k with
  | inserted => exact h.ins ht i c hi
  | modified => exact h.mod ht i c hi
  | either =>
    unfold Flag.test
    simp only
    rw [h.ins ht.1 i c hi]
    by_cases h1 : InWindow c.ins w.lastInsertion w.current
    · simp only [h1, decide_true]
      congr 1
      exact (decide_eq_true (show Holds .either w c.toRow from Or.inl h1)).symm
    · simp only [h1, decide_false]
      rw [h.mod ht.2 i c hi]
      congr 1
      rw [decide_eq_decide]
      exact ⟨Or.inr, fun h' => h'.resolve_left h1⟩

/-! ## Seeing -/

/-- Asked about `e` at position `i`, the member answers `o`. -/
def Sees (s : Ship V) (e : EId) (i : Nat) (o : Option (Out V)) : Prop :=
  (o = none ∧ s.indicesOf e i = .ok none) ∨
  ∃ ix x, o = some x ∧ s.indicesOf e i = .ok (some ix) ∧ s.sailorData ix = .ok x

/-- Given the position `i` without asking, the member reads `x`. -/
def Gives (s : Ship V) (i : Nat) (x : Out V) : Prop :=
  s.captainData i = .ok x ∧ ∃ ix, s.fromUsize i = .ok ix ∧ s.sailorData ix = .ok x

/-- As a sailor the member sees the meaning of the query. -/
def Sailor (st : Win V → Sto V) (q : Qry V) (s : Ship V) : Prop :=
  ∀ e i, Valid e → Sees s e i (item st q e)

theorem sees_view {st : Win V → Sto V} {w : Win V} (h : Reads w (st w)) : Sailor st (.view w) (.view w) := by
  obtain ⟨L, hL⟩ := h.looks
  intro e i he
  rcases hL.find e he with ⟨h1, h2⟩ | ⟨j, c, hj, hc, h2⟩
  · left
    simp only [item, h1, Ship.indicesOf, h2]
    exact ⟨rfl, rfl⟩
  · right
    subst hc
    refine ⟨.at j, .comp c.val, ?_, ?_, ?_⟩
    · simp only [item, hL.row j c hj]; rfl
    · simp only [Ship.indicesOf, h2]; rfl
    · simp only [Ship.sailorData, hL.data j c hj]; rfl

theorem sees_opt {st : Win V → Sto V} {w : Win V} (h : Reads w (st w)) : Sailor st (.opt w) (.opt w) := by
  obtain ⟨L, hL⟩ := h.looks
  intro e i he
  right
  rcases hL.find e he with ⟨h1, h2⟩ | ⟨j, c, hj, hc, h2⟩
  · refine ⟨.maybe none, .maybe none, ?_, ?_, rfl⟩
    · simp only [item, h1]; rfl
    · simp only [Ship.indicesOf, h2]; rfl
  · subst hc
    refine ⟨.maybe (some j), .maybe (some c.val), ?_, ?_, ?_⟩
    · simp only [item, hL.row j c hj]; rfl
    · simp only [Ship.indicesOf, h2]; rfl
    · simp only [Ship.sailorData, hL.data j c hj]; rfl

theorem sees_absent {st : Win V → Sto V} {w : Win V} {x : Bool} (h : Reads w (st w)) :
    Sailor st (.absent w x) (.absent w x) := by
  obtain ⟨L, hL⟩ := h.looks
  intro e i he
  rcases hL.find e he with ⟨h1, h2⟩ | ⟨j, c, hj, hc, h2⟩
  · right
    refine ⟨.at usizeMax, .unit, ?_, ?_, rfl⟩
    · simp only [item, h1]; rfl
    · simp only [Ship.indicesOf, h2]; rfl
  · left
    subst hc
    simp only [item, hL.row j c hj, Ship.indicesOf, h2]
    exact ⟨rfl, rfl⟩

theorem sees_flag {st : Win V → Sto V} {w : Win V} {k : Flag} {neg : Bool} (h : Reads w (st w))
    (ht : Tracks k (st w)) : Sailor st (.flag k neg w) (.flag k neg w) := by
  obtain ⟨L, hL⟩ := h.looks
  intro e i he
  rcases hL.find e he with ⟨h1, h2⟩ | ⟨j, c, hj, hc, h2⟩
  · left
    cases neg <;> simp only [item, h1, Ship.indicesOf, h2] <;> exact ⟨rfl, trivial⟩
  · subst hc
    have ht := test_ok hL k ht hj
    by_cases hh : Holds k w c.toRow
    · cases neg with
      | true =>
        left
        simp only [item, hL.row j c hj, Ship.indicesOf, h2, ht, hh, Option.bind_some, if_pos]
        exact ⟨trivial, rfl⟩
      | false =>
        right
        refine ⟨.at j, .comp c.val, ?_, ?_, ?_⟩
        · simp only [item, hL.row j c hj, hh, Option.bind_some, if_pos]; rfl
        · simp only [Ship.indicesOf, h2, ht, hh]; rfl
        · simp only [Ship.sailorData, hL.data j c hj]; rfl
    · cases neg with
      | false =>
        left
        simp only [item, hL.row j c hj, Ship.indicesOf, h2, ht, hh, Option.bind_some]
        exact ⟨rfl, rfl⟩
      | true =>
        right
        refine ⟨.at j, .comp c.val, ?_, ?_, ?_⟩
        · simp only [item, hL.row j c hj, hh, Option.bind_some]; rfl
        · simp only [Ship.indicesOf, h2, ht, hh]; rfl
        · simp only [Ship.sailorData, hL.data j c hj]; rfl

/-- An `Or` that is not captain. -/
theorem sees_or {st : Win V → Sto V} {qa qb : Qry V} {a b : Ship V} {past : Bool} (ha : Sailor st qa a)
    (hb : Sailor st qb b) : Sailor st (.or qa qb) (.or a b false past) := by
  intro e i he
  rcases ha e i he with ⟨h1, h2⟩ | ⟨ix, x, h1, h2, h3⟩
  · rcases hb e i he with ⟨h1', h2'⟩ | ⟨ix', x', h1', h2', h3'⟩
    · left
      simp only [item, h1, h1', Ship.indicesOf, h2, h2']
      exact ⟨rfl, trivial⟩
    · right
      refine ⟨.two ix', .two x', ?_, ?_, ?_⟩
      · simp only [item, h1, h1']; rfl
      · simp only [Ship.indicesOf, h2, h2']
      · simp only [Ship.sailorData, h3']; rfl
  · right
    have : ∃ y, b.indicesOf e i = .ok y := by
      rcases hb e i he with ⟨_, h2'⟩ | ⟨ix', _, _, h2', _⟩
      · exact ⟨_, h2'⟩
      · exact ⟨_, h2'⟩
    obtain ⟨y, hy⟩ := this
    refine ⟨.one ix, .one x, ?_, ?_, ?_⟩
    · simp only [item, h1]
    · simp only [Ship.indicesOf, h2, hy]
    · simp only [Ship.sailorData, h3]; rfl

/-- The members of a `Mixed` one by one, from position `j`; `os` is what each sees. -/
inductive SeesL (mask : Option Nat) (e : EId) (i : Nat) : Nat → List (Ship V) → List (Option (Out V)) → Prop where
  | nil {j} : SeesL mask e i j [] []
  | ask {j s l o os} : mask ≠ some j → Sees s e i o → SeesL mask e i (j + 1) l os →
      SeesL mask e i j (s :: l) (o :: os)
  | given {j s l x os} : mask = some j → Gives s i x → SeesL mask e i (j + 1) l os →
      SeesL mask e i j (s :: l) (some x :: os)

/-- All or nothing. -/
def allOf {α : Type} : List (Option α) → Option (List α)
  | [] => some []
  | o :: os => o.bind fun x => (allOf os).map (x :: ·)

theorem seesL_ok {mask : Option Nat} {e : EId} {i : Nat} {j : Nat} {l : List (Ship V)} {os : List (Option (Out V))}
    (h : SeesL mask e i j l os) :
    (allOf os = none ∧ Ship.indicesOfs l mask j e i = .ok none) ∨
    ∃ ixs xs, allOf os = some xs ∧ Ship.indicesOfs l mask j e i = .ok (some ixs) ∧
      Ship.sailorDatas l ixs = .ok xs := by
  induction h with
  | nil => right; exact ⟨[], [], rfl, rfl, rfl⟩
  | @ask j s l o os hm hs _ ih =>
    simp only [Ship.indicesOfs, if_neg hm]
    rcases hs with ⟨rfl, h2⟩ | ⟨ix, x, rfl, h2, h3⟩
    · left; rw [h2]; exact ⟨rfl, rfl⟩
    · rw [h2]
      rcases ih with ⟨h4, h5⟩ | ⟨ixs, xs, h4, h5, h6⟩
      · left; simp only [allOf, h4, h5]; exact ⟨rfl, rfl⟩
      · right
        refine ⟨ix :: ixs, x :: xs, ?_, ?_, ?_⟩
        · simp only [allOf, h4]; rfl
        · simp only [h5]; rfl
        · simp only [Ship.sailorDatas, h3, h6]; rfl
  | @given j s l x os hm hs _ ih =>
    obtain ⟨_, ix, h2, h3⟩ := hs
    simp only [Ship.indicesOfs, if_pos hm, h2]
    rcases ih with ⟨h4, h5⟩ | ⟨ixs, xs, h4, h5, h6⟩
    · left; simp only [allOf, h4, h5]; exact ⟨rfl, rfl⟩
    · right
      refine ⟨ix :: ixs, x :: xs, ?_, ?_, ?_⟩
      · simp only [allOf, h4]; rfl
      · simp only [Except.map, h5]; rfl
      · simp only [Ship.sailorDatas, h3, h6]; rfl

theorem sees_mixed {mask : Option Nat} {e : EId} {i : Nat} {l : List (Ship V)} {os : List (Option (Out V))}
    (h : SeesL mask e i 0 l os) : Sees (.mixed l mask) e i ((allOf os).map .tup) := by
  rcases seesL_ok h with ⟨h4, h5⟩ | ⟨ixs, xs, h4, h5, h6⟩
  · left; simp only [h4, Ship.indicesOf, h5]; exact ⟨rfl, rfl⟩
  · right
    refine ⟨.tup ixs, .tup xs, by rw [h4]; rfl, ?_, ?_⟩
    · simp only [Ship.indicesOf, h5]; rfl
    · simp only [Ship.sailorData, h6]; rfl

theorem itemsOf_eq (st : Win V → Sto V) (e : EId) : ∀ l, itemsOf st l e = allOf (l.map fun q => item st q e)
  | [] => rfl
  | q :: l => by simp only [itemsOf, List.map_cons, allOf, itemsOf_eq st e l]

end Verif.IterSpec
