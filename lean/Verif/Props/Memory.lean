import Verif.Lemmas.Memory
import Verif.Lemmas.EntitiesSpec

/-! # C82: the memory a world says it uses -/
namespace Verif.Memory
open StoSpec
variable {T : Type}

/-- C82. The table of a storage: exactly the pages of the entities a component was ever given for are paid for, and a word for
every page below them. -/
theorem C82_table {a b c d : Bool} {h : List (Event T)} {s : SparseSet T} (hr : Run (SparseSet.new a b c d) h s) :
    TableBytes h (usedSparse s.sparse) := by
  obtain ⟨h1, h2⟩ := run_pages hr
  have e0 : (SparseSet.new a b c d : SparseSet T).sparse = [] := rfl
  refine ⟨s.sparse.length, (List.range (shape s.sparse).length).filter fun b => (shape s.sparse)[b]? == some true, fun b => ?_,
    List.Pairwise.filter _ List.nodup_range, fun b => ?_, ?_⟩
  · rw [h2 b, e0]
    exact ⟨fun h => h.elim (fun h => by cases h) id, .inr⟩
  · rw [List.mem_filter, List.mem_range, beq_iff_eq]
    have := h1 b
    rw [e0] at this
    constructor
    · rintro ⟨_, hb⟩
      exact (this.mp hb).elim (fun h => by simp [shape] at h) id
    · intro hp
      have hb := this.mpr (.inr hp)
      exact ⟨SparseArray.lt_of_some hb, hb⟩
  · unfold usedSparse
    rw [pagesMemory_eq, count_eq_filter]
    show s.sparse.length * 8 + _ = _
    omega

/-- C82. The number of components and the bytes in use are what the history of the storage says. -/
theorem C82_used_partial (z : Sizes) (cap : Caps) {a b c d : Bool} {h : List (Event T)} {s : SparseSet T}
    (hr : Run (SparseSet.new a b c d) h s) (hn : NoTakeover h) :
    ∃ n table, Rows (after (Sto.init a b c d) h) n ∧ TableBytes h table ∧ (setUsage z cap s).count = n ∧
      (setUsage z cap s).used = table + n * (8 + z.comp)
        + (if (after (Sto.init a b c d) h).trkIns then 8 * n else 0) + (if (after (Sto.init a b c d) h).trkMod then 8 * n else 0)
        + z.deletion * (after (Sto.init a b c d) h).deleted.length + 16 * (after (Sto.init a b c d) h).removed.length + z.set := by
  obtain ⟨L, hL⟩ := SparseSet.run_abs hr
  have hd : s.dense.length = L.length := by rw [hL.shape]; simp [SparseSet.build]
  have hdata : s.data.length = L.length := by rw [hL.shape]; simp [SparseSet.build]
  have hins : s.insertionData.length = if (after (Sto.init a b c d) h).trkIns then L.length else 0 := by
    rw [hL.shape, ← hL.trkIns]
    unfold SparseSet.build
    dsimp only
    split <;> simp
  have hmod : s.modificationData.length = if (after (Sto.init a b c d) h).trkMod then L.length else 0 := by
    rw [hL.shape, ← hL.trkMod]
    unfold SparseSet.build
    dsimp only
    split <;> simp
  refine ⟨L.length, usedSparse s.sparse, ⟨L.map (·.id.idx), ?_, ?_, by simp⟩, C82_table hr, hd, ?_⟩
  · unfold List.Nodup
    rw [List.pairwise_iff_getElem]
    intro i j hi hj hij he
    rw [List.length_map] at hi hj
    simp only [List.getElem_map] at he
    have h1 := hL.ok.hit i _ (List.getElem?_eq_getElem hi)
    have h2 := hL.ok.hit j _ (List.getElem?_eq_getElem hj)
    rw [he] at h1
    have := h1.symm.trans h2
    injection this with h3 _
    omega
  · intro i
    rw [hL.rows i, List.mem_map]
    constructor
    · rintro ⟨c, hc, hi⟩
      have := (SparseSet.cellAt_some hL.ok).mpr ⟨hc, hi⟩
      exact ⟨c.toRow, by rw [this]; rfl⟩
    · rintro ⟨r, hr⟩
      cases hc : SparseSet.cellAt L i with
      | none => rw [hc] at hr; cases hr
      | some c => exact ⟨c, (SparseSet.cellAt_some hL.ok).mp hc⟩
  · show usedBytes z s = _
    unfold usedBytes
    rw [hd, hdata, hins, hmod, hL.deleted hn, hL.removed]
    have e : ∀ (t : Bool), (if t then L.length else 0) * WORD = if t then 8 * L.length else 0 := by
      intro t
      cases t
      · simp
      · simp [WORD]; omega
    rw [e, e]
    have e1 : L.length * WORD = L.length * 8 := rfl
    have e2 : L.length * (8 + z.comp) = L.length * 8 + L.length * z.comp := Nat.mul_add ..
    have e3 := Nat.mul_comm z.deletion (after (Sto.init a b c d) h).deleted.length
    have e4 : (after (Sto.init a b c d) h).removed.length * (2 * WORD) = 16 * (after (Sto.init a b c d) h).removed.length := by
      unfold WORD; omega
    omega

/-- C82. The memory in use is never more than the memory allocated: vectors are never longer than their capacities. -/
theorem C82_allocated (z : Sizes) (c : Caps) (s : SparseSet T) (h1 : s.sparse.length ≤ c.sparse) (h2 : s.dense.length ≤ c.dense)
    (h3 : s.data.length ≤ c.data) (h4 : s.insertionData.length ≤ c.ins) (h5 : s.modificationData.length ≤ c.mod)
    (h6 : s.deletionData.length ≤ c.del) (h7 : s.removalData.length ≤ c.rem) :
    (setUsage z c s).used ≤ (setUsage z c s).allocated := by
  show usedBytes z s ≤ allocatedBytes z c s
  unfold usedBytes allocatedBytes usedSparse reservedSparse
  have g1 := Nat.mul_le_mul_right WORD h1
  have g2 := Nat.mul_le_mul_right WORD h2
  have g3 := Nat.mul_le_mul_right z.comp h3
  have g4 := Nat.mul_le_mul_right WORD h4
  have g5 := Nat.mul_le_mul_right WORD h5
  have g6 := Nat.mul_le_mul_right z.deletion h6
  have g7 := Nat.mul_le_mul_right (2 * WORD) h7
  omega

/-- The sum of the parts of a detailed report. -/
def Detail.total (d : Detail) : Nat :=
  d.sparse + d.dense + d.data + d.insertion + d.modification + d.deletion + d.removal + d.itself

/-- C82. The parts of a detailed report add up to the short one. -/
theorem C82_detail (z : Sizes) (c : Caps) (s : SparseSet T) :
    (detailed z c s).base = setUsage z c s ∧ (detailed z c s).used.total = (setUsage z c s).used ∧
      (detailed z c s).allocated.total = (setUsage z c s).allocated := ⟨rfl, rfl, rfl⟩

/-- C82. The table of a storage never shrinks, whatever is called: removing, deleting, draining and clearing give no memory
back. -/
theorem C82_table_kept {s0 s : SparseSet T} {h : List (Event T)} (hr : Run s0 h s) : usedSparse s0.sparse ≤ usedSparse s.sparse := by
  obtain ⟨h1, h2⟩ := run_pages hr
  unfold usedSparse
  rw [pagesMemory_eq, pagesMemory_eq]
  have g1 : (shape s0.sparse).count true ≤ (shape s.sparse).count true := count_mono fun b hb => (h1 b).mpr (.inl hb)
  have g2 : s0.sparse.length ≤ s.sparse.length := by
    rcases Nat.lt_or_ge s.sparse.length s0.sparse.length with hlt | hge
    · exact absurd ((h2 s.sparse.length).mpr (.inl hlt)) (Nat.lt_irrefl _)
    · exact hge
  have := Nat.mul_le_mul_right WORD g2
  omega

/-- C82. Only giving components to entities of new pages makes it grow. -/
theorem C82_table_same {s0 s : SparseSet T} {h : List (Event T)} (hr : Run s0 h s)
    (hn : ∀ ev ∈ h, ∀ i, ¬ Gives ev i) : usedSparse s.sparse = usedSparse s0.sparse := by
  obtain ⟨h1, h2⟩ := run_pages hr
  have np : ∀ b, ¬ Paged h b := fun b ⟨ev, hm, i, hi, _⟩ => hn ev hm i hi
  have hl : s.sparse.length = s0.sparse.length := by
    have k : ∀ b : Nat, b < s.sparse.length ↔ b < s0.sparse.length := fun b =>
      ⟨fun hb => ((h2 b).mp hb).elim id fun ⟨b', _, hp⟩ => absurd hp (np b'), fun hb => (h2 b).mpr (.inl hb)⟩
    have k1 := k s.sparse.length
    have k2 := k s0.sparse.length
    omega
  unfold usedSparse
  rw [pagesMemory_eq, pagesMemory_eq, hl]
  have g1 : (shape s0.sparse).count true ≤ (shape s.sparse).count true := count_mono fun b hb => (h1 b).mpr (.inl hb)
  have g2 : (shape s.sparse).count true ≤ (shape s0.sparse).count true :=
    count_mono fun b hb => ((h1 b).mp hb).elim id fun hp => absurd hp (np b)
  omega

/-- C82. A unique counts as one component, and takes what it allocates. -/
theorem C82_unique (size : Nat) : (uniqueUsage size).count = 1 ∧ (uniqueUsage size).used = size ∧ (uniqueUsage size).allocated = size :=
  ⟨rfl, rfl, rfl⟩

/-- C82. The store of entities: 8 bytes for every index in use or to be used again. -/
theorem C82_entities (size cap : Nat) {s : Entities} {h : List EntSpec.Event} (hr : EntSpec.Reach s h) :
    (entitiesUsage size cap s).count = (EntSpec.slots h).count ∧
    (entitiesUsage size cap s).used = 8 * (EntSpec.slots h).count + size ∧
    (s.data.length ≤ cap → (entitiesUsage size cap s).used ≤ (entitiesUsage size cap s).allocated) := by
  have hl := (Entities.reach_lasting hr).2.1
  refine ⟨hl, ?_, fun hc => ?_⟩
  · show s.data.length * 8 + size = _
    omega
  · show s.data.length * 8 + size ≤ cap * 8 + size
    omega

/-! ## The list for a world -/

theorem listOne_fold (ss : List Stored) (acc : List Line × Nat) : ss.foldl listOne acc =
    (acc.1 ++ (ss.filterMap fun s => if s.refused then none else s.usage).map Line.usage, acc.2 + (ss.filter (·.refused)).length) := by
  induction ss generalizing acc with
  | nil => simp
  | cons s ss ih =>
    rw [List.foldl_cons, ih]
    unfold listOne
    cases hr : s.refused with
    | true => simp [hr]; omega
    | false =>
      cases hu : s.usage with
      | none => simp [hr, hu]
      | some u => simp [hr, hu]

/-- C82. The list for a world has one line for each storage that can be read, with what the storage says, in order; the others
are only counted, on one more line, which is there when there are any. -/
theorem C82_list (ss : List Stored) (all : Bool) :
    (listWorld all ss = none ↔ all = true) ∧
    (all = false → ∃ lines, listWorld all ss = some lines ∧
      lines.filterMap (fun l => match l with | .usage u => some u | .borrowed _ => none)
        = (ss.filter fun s => !s.refused).filterMap (·.usage) ∧
      lines.filterMap (fun l => match l with | .usage _ => none | .borrowed n => some n)
        = if ss.any (·.refused) then [(ss.filter (·.refused)).length] else []) := by
  constructor
  · unfold listWorld
    cases all <;> simp
  · rintro rfl
    refine ⟨listAll ss, rfl, ?_⟩
    unfold listAll
    rw [listOne_fold]
    dsimp only
    have e1 : ∀ us : List Usage, (us.map Line.usage).filterMap (fun l => match l with | .usage u => some u | .borrowed _ => none) = us := by
      intro us
      rw [List.filterMap_map]
      induction us with
      | nil => rfl
      | cons u us ih => rw [List.filterMap_cons]; dsimp; rw [ih]
    have e2 : ∀ us : List Usage, (us.map Line.usage).filterMap (fun l => match l with | .usage _ => none | .borrowed n => some n) = ([] : List Nat) := by
      intro us
      rw [List.filterMap_map]
      induction us with
      | nil => rfl
      | cons u us ih => rw [List.filterMap_cons]; exact ih
    have e3 : (ss.filterMap fun s => if s.refused then none else s.usage) = (ss.filter fun s => !s.refused).filterMap (·.usage) := by
      rw [List.filterMap_filter]
      congr 1
      funext s
      cases s.refused <;> rfl
    have e4 : ss.any (·.refused) = true ↔ 0 + (ss.filter (·.refused)).length ≠ 0 := by
      rw [Nat.zero_add, Ne, List.length_eq_zero_iff, List.filter_eq_nil_iff, List.any_eq_true]
      constructor
      · rintro ⟨s, hs, hr⟩ h; exact h s hs hr
      · intro h
        by_cases hx : ∃ x ∈ ss, x.refused = true
        · exact hx
        · exact absurd (fun s hs hr => hx ⟨s, hs, hr⟩) h
    rw [← e3]
    by_cases hb : 0 + (ss.filter (·.refused)).length ≠ 0
    · rw [if_pos hb, if_pos (e4.mpr hb), List.nil_append, List.filterMap_append, List.filterMap_append, e1, e2]
      simp
    · rw [if_neg hb, if_neg (fun h => hb (e4.mp h)), List.nil_append, e1, e2]
      exact ⟨rfl, rfl⟩

/-! ## What does not hold -/

/-- The number the store of entities gives as its number of components is not the number of entities alive. -/
theorem C82_alive_fails : ∃ (s : Entities) (h : List EntSpec.Event), EntSpec.Reach s h ∧ EntSpec.alive h = [] ∧
    (entitiesUsage 0 0 s).count = 1 := by
  refine ⟨_, [.added ⟨0, 0⟩, .deleted ⟨0, 0⟩ true],
    .step (.step (.init false) (.add (e := ⟨0, 0⟩) (s' := ⟨[⟨0, 0⟩], none, false, []⟩) rfl) (by decide) (fun h => by cases h))
      (.delete (s' := ⟨[⟨281474976710654, 1⟩], some (0, 0), false, []⟩) rfl) (by decide) (fun h => by cases h), by decide, rfl⟩

/-- The memory in use does not follow the number of components: one component ever given to an entity of page `n` costs
`8 (n + 1) + 256` bytes, for good. -/
theorem C82_count_fails (z : Sizes) {a b c d : Bool} {h : List (Event T)} {s : SparseSet T}
    (hr : Run (SparseSet.new a b c d) h s) (n : Nat) (hn : Paged h n) : 8 * (n + 1) + 256 ≤ usedBytes z s := by
  obtain ⟨top, pages, h1, _, h3, h4⟩ := C82_table hr
  have k1 := (h1 n).mpr ⟨n, Nat.le_refl _, hn⟩
  have k2 : 0 < pages.length := List.length_pos_of_mem ((h3 n).mpr hn)
  unfold usedBytes
  omega

/-- A storage that was given one component. -/
def full : SparseSet Nat :=
  { (SparseSet.new false false true false : SparseSet Nat) with
    sparse := [none, none, none, some (SparseArray.emptyPage.set 4 ⟨0, 0⟩)], dense := [⟨100, 0⟩], data := [7] }

/-- A storage that was given one component, for the entity with index 100, and was then cleared. -/
def demo : SparseSet Nat :=
  { (SparseSet.new false false true false : SparseSet Nat) with
    sparse := [none, none, none, some SparseArray.emptyPage], deletionData := [(⟨100, 0⟩, 2, 7)] }

theorem demo_run : Run (SparseSet.new false false true false) [.inserted ⟨100, 0⟩ 7 1 .inserted, .cleared 2 [(⟨100, 0⟩, 7)]] demo := by
  have h1 : Step (SparseSet.new false false true false) (.inserted ⟨100, 0⟩ 7 1 .inserted) full := .insert (by decide) rfl
  have h2 : Step full (.cleared 2 [(⟨100, 0⟩, 7)]) demo := .clear rfl
  exact .snoc (.snoc .nil h1) h2

example : Paged ([.inserted ⟨100, 0⟩ 7 1 .inserted, .cleared 2 [(⟨100, 0⟩, 7)]] : List (Event Nat)) 3 :=
  ⟨_, List.mem_cons_self, 100, rfl, rfl⟩
example : NoTakeover ([.inserted ⟨100, 0⟩ 7 1 .inserted, .cleared 2 [(⟨100, 0⟩, 7)]] : List (Event Nat)) := by
  intro e v now h
  simp at h
example : setUsage ⟨4, 24, 200⟩ ⟨4, 4, 4, 0, 0, 4, 0⟩ demo = ⟨512, 632, 0⟩ := by decide
example : listWorld false [⟨false, some ⟨1, 2, 3⟩⟩, ⟨true, some ⟨4, 5, 6⟩⟩, ⟨false, none⟩] = some [.usage ⟨1, 2, 3⟩, .borrowed 1] := rfl

end Verif.Memory
