import Verif.Model.SparseSet
import Verif.Lemmas.SparseArray
import Verif.Lemmas.EntitiesSpawn

/-!
# Lemmas: a storage as a list of cells

Every storage reachable through the API is `build s sp L`: its five vectors are described by a list
`L` of cells (`SOK`), the rest of the record being the one of `s`.
-/
namespace Verif.SparseSet
open EId (BUCKET_SIZE)
open SparseArray (WFA look has)
variable {T : Type}

/-- One row of a storage. `id` is what `dense` holds, `gen` the generation in the sparse array (they
differ only after an override by a greater generation), `ins`/`mod` the timestamps (0 when untracked). -/
structure Cell (T : Type) where
  id : EId
  gen : Nat
  val : T
  ins : Nat
  mod : Nat

/-- `s` with its vectors given by `sp` and `L`. -/
def build (s : SparseSet T) (sp : SparseArray) (L : List (Cell T)) : SparseSet T :=
  { s with
    sparse := sp
    dense := L.map (·.id)
    data := L.map (·.val)
    insertionData := if s.trkIns then L.map (·.ins) else []
    modificationData := if s.trkMod then L.map (·.mod) else [] }

/-- The sparse array is the index of the cells. -/
structure SOK (sp : SparseArray) (L : List (Cell T)) : Prop where
  wfa : WFA sp
  hit : ∀ (i : Nat) (c : Cell T), L[i]? = some c → look sp c.id.idx = ⟨i, c.gen⟩
  miss : ∀ (j : Nat), (∀ c ∈ L, c.id.idx ≠ j) → (look sp j).gen = 65535
  cells : ∀ c ∈ L, c.gen < 65535 ∧ c.gen ≤ c.id.gen ∧ c.id.gen < 65536 ∧ c.id.idx < EId.INDEX_MASK

/-- Untracked timestamps are 0. -/
def ZOK (s : SparseSet T) (L : List (Cell T)) : Prop :=
  (s.trkIns = false → ∀ c ∈ L, c.ins = 0) ∧ (s.trkMod = false → ∀ c ∈ L, c.mod = 0)

theorem getElem?_lt {α} {l : List α} {i : Nat} {a : α} (h : l[i]? = some a) : i < l.length :=
  SparseArray.lt_of_some h

namespace SOK
variable {sp : SparseArray} {L : List (Cell T)}

theorem inj (h : SOK sp L) {i j : Nat} {c d : Cell T} (hi : L[i]? = some c) (hj : L[j]? = some d)
    (he : c.id.idx = d.id.idx) : i = j ∧ c = d := by
  have h1 := h.hit i c hi
  have h2 := h.hit j d hj
  rw [he, h2] at h1
  injection h1 with h3 h4
  subst h3
  rw [hi] at hj; cases hj
  exact ⟨rfl, rfl⟩

theorem nodup (h : SOK sp L) : (L.map (·.id.idx)).Nodup := by
  rw [List.nodup_iff_pairwise_ne, List.pairwise_map, List.pairwise_iff_getElem]
  intro i j hi hj hij he
  have := h.inj (List.getElem?_eq_getElem hi) (List.getElem?_eq_getElem hj) he
  omega

theorem page (h : SOK sp L) {c : Cell T} (hc : c ∈ L) : has sp (c.id.idx / BUCKET_SIZE) := by
  obtain ⟨i, hi⟩ := List.mem_iff_getElem?.1 hc
  rcases SparseArray.slot_eq h.wfa c.id.idx with ⟨_, _, h3⟩ | ⟨h3, _⟩
  · rw [h.hit i c hi] at h3
    have := (h.cells c hc).1
    injection h3 with _ h4
    omega
  · exact h3

/-- An index is either absent or carried by exactly one cell. -/
theorem cases (h : SOK sp L) (j : Nat) :
    ((∀ c ∈ L, c.id.idx ≠ j) ∧ (look sp j).gen = 65535) ∨
    (∃ (i : Nat) (c : Cell T), L[i]? = some c ∧ c.id.idx = j ∧ look sp j = ⟨i, c.gen⟩) := by
  by_cases hj : ∃ c ∈ L, c.id.idx = j
  · right
    obtain ⟨c, hc, he⟩ := hj
    obtain ⟨i, hi⟩ := List.mem_iff_getElem?.1 hc
    exact ⟨i, c, hi, he, he ▸ h.hit i c hi⟩
  · left
    have : ∀ c ∈ L, c.id.idx ≠ j := fun c hc he => hj ⟨c, hc, he⟩
    exact ⟨this, h.miss j this⟩

end SOK

theorem sok_new : SOK (T := T) SparseArray.new [] where
  wfa := SparseArray.wfa_new
  hit := by intro i c h; simp at h
  miss := by intro j _; unfold look SparseArray.slot SparseArray.new; simp [EId.dead]
  cells := by intro c h; cases h

theorem new_build (a b c d : Bool) :
    (new a b c d : SparseSet T) = build (new a b c d) SparseArray.new [] := by
  cases a <;> cases b <;> rfl

/-! ## Looking up -/

/-- The cell of index `j`. -/
def cellAt (L : List (Cell T)) (j : Nat) : Option (Cell T) := L.find? (fun c => c.id.idx == j)

theorem cellAt_none {L : List (Cell T)} {j : Nat} : cellAt L j = none ↔ ∀ c ∈ L, c.id.idx ≠ j := by
  unfold cellAt; simp

theorem cellAt_some {sp : SparseArray} {L : List (Cell T)} (h : SOK sp L) {j : Nat} {c : Cell T} :
    cellAt L j = some c ↔ c ∈ L ∧ c.id.idx = j := by
  unfold cellAt
  constructor
  · intro hf
    exact ⟨List.mem_of_find?_eq_some hf, by simpa using List.find?_some hf⟩
  · rintro ⟨hm, he⟩
    cases hf : L.find? (fun c => c.id.idx == j) with
    | none =>
      rw [List.find?_eq_none] at hf
      exact absurd he (by simpa using hf c hm)
    | some d =>
      have hd := List.mem_of_find?_eq_some hf
      have he' : d.id.idx = j := by simpa using List.find?_some hf
      obtain ⟨a, ha⟩ := List.mem_iff_getElem?.1 hd
      obtain ⟨b, hb⟩ := List.mem_iff_getElem?.1 hm
      rw [(h.inj ha hb (by rw [he, he'])).2]

/-- Cells of two lists agree at an index when they have the same members there. -/
theorem cellAt_congr {sp sp' : SparseArray} {L L' : List (Cell T)} (h : SOK sp L) (h' : SOK sp' L')
    {j : Nat} (hm : ∀ c, c.id.idx = j → (c ∈ L' ↔ c ∈ L)) : cellAt L' j = cellAt L j := by
  cases hc : cellAt L j with
  | none =>
    rw [cellAt_none] at hc ⊢
    intro c hc' he
    exact hc c ((hm c he).1 hc') he
  | some c =>
    rw [cellAt_some h] at hc
    rw [cellAt_some h']
    exact ⟨(hm c hc.2).2 hc.1, hc.2⟩

theorem indexOf_ok {s : SparseSet T} {sp : SparseArray} {L : List (Cell T)} (h : SOK sp L) (e : EId)
    (hg : e.gen < 65535) :
    ((∀ c ∈ L, ¬ (c.id.idx = e.idx ∧ c.gen = e.gen)) ∧ (build s sp L).indexOf e = .ok none) ∨
    (∃ (i : Nat) (c : Cell T), L[i]? = some c ∧ c.id.idx = e.idx ∧ c.gen = e.gen ∧
      (build s sp L).indexOf e = .ok (some i)) := by
  unfold indexOf
  show (_ ∧ (do let o ← sp.get e; _) = _) ∨ _
  rcases h.cases e.idx with ⟨hne, hl⟩ | ⟨i, c, hi, he, hl⟩
  · left
    refine ⟨fun c hc hh => hne c hc hh.1, ?_⟩
    rcases SparseArray.get_look h.wfa e with h1 | ⟨h1, _⟩
    · simp only [h1, bind, Except.bind]
      rw [if_neg (by omega)]
    · simp only [h1, bind, Except.bind]
  · have h1 : sp.get e = .ok (some ⟨i, c.gen⟩) := by
      rcases SparseArray.get_look h.wfa e with h1 | ⟨_, h2⟩
      · rw [h1, hl]
      · rw [hl] at h2
        injection h2 with _ h3
        have := (h.cells c (List.mem_of_getElem? hi)).1
        omega
    by_cases hgen : c.gen = e.gen
    · right
      refine ⟨i, c, hi, he, hgen, ?_⟩
      show (do let o ← sp.get e; _) = _
      simp only [h1, bind, Except.bind]
      rw [if_pos hgen.symm]
    · left
      refine ⟨?_, ?_⟩
      · rintro d hd ⟨h2, h3⟩
        obtain ⟨k, hk⟩ := List.mem_iff_getElem?.1 hd
        have := (h.inj hi hk (by rw [he, h2])).2
        subst this; exact hgen h3
      · simp only [h1, bind, Except.bind]
        rw [if_neg (fun hh => hgen hh.symm)]

/-- What reading `e` returns, on the cells. -/
def readCell (L : List (Cell T)) (e : EId) : Option T :=
  match cellAt L e.idx with
  | some c => if c.gen = e.gen then some c.val else none
  | none => none

theorem readCell_eq {sp : SparseArray} {L : List (Cell T)} (h : SOK sp L) {e : EId} {c : Cell T}
    (hc : c ∈ L) (he : c.id.idx = e.idx) (hg : c.gen = e.gen) : readCell L e = some c.val := by
  unfold readCell
  rw [(cellAt_some h).2 ⟨hc, he⟩]
  simp only
  rw [if_pos hg]

theorem readCell_none {sp : SparseArray} {L : List (Cell T)} (h : SOK sp L) {e : EId}
    (hn : ∀ c ∈ L, ¬ (c.id.idx = e.idx ∧ c.gen = e.gen)) : readCell L e = none := by
  unfold readCell
  split
  · rename_i c hc
    rw [cellAt_some h] at hc
    rw [if_neg]
    exact fun hg => hn c hc.1 ⟨hc.2, hg⟩
  · rfl

theorem get_ok {s : SparseSet T} {sp : SparseArray} {L : List (Cell T)} (h : SOK sp L) (e : EId)
    (hg : e.gen < 65535) : (build s sp L).get e = .ok (readCell L e) := by
  unfold get
  rcases indexOf_ok (s := s) h e hg with ⟨h1, h2⟩ | ⟨i, c, hi, he, hgen, h2⟩
  · simp only [h2, bind, Except.bind]
    rw [readCell_none h h1]
  · simp only [h2, bind, Except.bind]
    have : vecGetU (build s sp L).data i = .ok c.val := by
      unfold vecGetU build
      simp [List.getElem?_map, hi]
    rw [this]
    simp only
    rw [readCell_eq h (List.mem_of_getElem? hi) he hgen]

theorem contains_ok {s : SparseSet T} {sp : SparseArray} {L : List (Cell T)} (h : SOK sp L) (e : EId)
    (hg : e.gen < 65535) : (build s sp L).contains e = .ok (readCell L e).isSome := by
  unfold contains
  rcases indexOf_ok (s := s) h e hg with ⟨h1, h2⟩ | ⟨i, c, hi, he, hgen, h2⟩
  · simp only [h2, bind, Except.bind]
    rw [readCell_none h h1]; rfl
  · simp only [h2, bind, Except.bind]
    rw [readCell_eq h (List.mem_of_getElem? hi) he hgen]; rfl

/-! ## Changing cells -/

theorem mem_set_iff {α} {l : List α} {i : Nat} {a b : α} (hi : l[i]? = some a) :
    b ∈ l.set i a ↔ b ∈ l := by
  have : l.set i a = l := by
    apply List.ext_getElem?
    intro k
    by_cases hk : i = k
    · subst hk
      rw [List.getElem?_set_self (getElem?_lt hi), hi]
    · rw [List.getElem?_set_ne hk]
  rw [this]

/-- Replacing the cell at `i` by one of the same index, and its sparse generation accordingly. -/
theorem SOK.replace {sp sp' : SparseArray} {L : List (Cell T)} (h : SOK sp L) {i : Nat} {c d : Cell T}
    (hi : L[i]? = some c) (he : d.id.idx = c.id.idx) (hw : WFA sp')
    (hl : ∀ j, look sp' j = if j = c.id.idx then ⟨i, d.gen⟩ else look sp j)
    (hd : d.gen < 65535 ∧ d.gen ≤ d.id.gen ∧ d.id.gen < 65536) : SOK sp' (L.set i d) where
  wfa := hw
  hit := by
    intro k x hx
    by_cases hk : i = k
    · subst hk
      rw [List.getElem?_set_self (getElem?_lt hi)] at hx
      cases hx
      rw [hl, if_pos he]
    · rw [List.getElem?_set_ne hk] at hx
      rw [hl, if_neg, h.hit k x hx]
      intro hh
      exact hk (h.inj hi hx hh.symm).1
  miss := by
    intro j hj
    have hne : j ≠ c.id.idx := by
      intro hh
      refine hj d ?_ (by rw [he, hh])
      exact List.mem_of_getElem? (List.getElem?_set_self (getElem?_lt hi))
    rw [hl, if_neg hne]
    apply h.miss
    intro x hx
    obtain ⟨k, hk⟩ := List.mem_iff_getElem?.1 hx
    by_cases hik : i = k
    · subst hik; rw [hi] at hk; cases hk; exact fun hh => hne hh.symm
    · exact hj x (List.mem_of_getElem? (i := k) (by rw [List.getElem?_set_ne hik]; exact hk))
  cells := by
    intro x hx
    rcases List.mem_or_eq_of_mem_set hx with hx | rfl
    · exact h.cells x hx
    · exact ⟨hd.1, hd.2.1, hd.2.2, by rw [he]; exact (h.cells c (List.mem_of_getElem? hi)).2.2.2⟩

theorem map_set_eq {α β} {L : List α} {i : Nat} {d : α} (f : α → β) :
    (L.map f).set i (f d) = (L.set i d).map f := by
  rw [List.map_set]

theorem SOK.push {sp sp' : SparseArray} {L : List (Cell T)} (h : SOK sp L) {d : Cell T}
    (hn : ∀ c ∈ L, c.id.idx ≠ d.id.idx) (hw : WFA sp')
    (hl : ∀ j, look sp' j = if j = d.id.idx then ⟨L.length, d.gen⟩ else look sp j)
    (hd : d.gen < 65535 ∧ d.gen ≤ d.id.gen ∧ d.id.gen < 65536 ∧ d.id.idx < EId.INDEX_MASK) :
    SOK sp' (L ++ [d]) where
  wfa := hw
  hit := by
    intro k x hx
    rcases Nat.lt_or_ge k L.length with hk | hk
    · rw [List.getElem?_append_left hk] at hx
      rw [hl, if_neg (hn x (List.mem_of_getElem? hx)), h.hit k x hx]
    · rw [List.getElem?_append_right hk] at hx
      have hk0 : k - L.length = 0 := by have := getElem?_lt hx; simp at this; omega
      rw [hk0] at hx
      cases hx
      rw [hl, if_pos rfl]
      have : k = L.length := by omega
      rw [this]
  miss := by
    intro j hj
    rw [hl, if_neg (fun hh => hj d (by simp) hh.symm)]
    exact h.miss j (fun c hc => hj c (by simp [hc]))
  cells := by
    intro x hx
    rcases List.mem_append.1 hx with hx | hx
    · exact h.cells x hx
    · simp at hx; subst hx; exact hd

/-- At most `2^48 - 1` cells. -/
theorem nodup_le {l : List Nat} (hn : l.Nodup) {n : Nat} (h : ∀ x ∈ l, x < n) : l.length ≤ n :=
  Entities.nodup_length_le n l hn h

theorem SOK.length_le {sp : SparseArray} {L : List (Cell T)} (h : SOK sp L) :
    L.length ≤ EId.INDEX_MASK := by
  have := nodup_le h.nodup (n := EId.INDEX_MASK) (by
    intro x hx
    obtain ⟨c, hc, rfl⟩ := List.mem_map.1 hx
    exact (h.cells c hc).2.2.2)
  simpa using this

/-- There is room for a new index. -/
theorem SOK.length_lt {sp : SparseArray} {L : List (Cell T)} (h : SOK sp L) {j : Nat}
    (hj : j < EId.INDEX_MASK) (hn : ∀ c ∈ L, c.id.idx ≠ j) : L.length < EId.INDEX_MASK := by
  have hnd : (j :: L.map (·.id.idx)).Nodup := by
    rw [List.nodup_cons]
    refine ⟨?_, h.nodup⟩
    intro hm
    obtain ⟨c, hc, he⟩ := List.mem_map.1 hm
    exact hn c hc he
  have := nodup_le hnd (n := EId.INDEX_MASK) (by
    intro x hx
    rcases List.mem_cons.1 hx with rfl | hx
    · exact hj
    · obtain ⟨c, hc, rfl⟩ := List.mem_map.1 hx
      exact (h.cells c hc).2.2.2)
  simp at this
  omega

end Verif.SparseSet
