import Verif.Model.SparseArray

/-! # Lemmas: the paged sparse array as a flat table -/
namespace Verif.SparseArray
open EId (BUCKET_SIZE)

/-- All pages have `BUCKET_SIZE` entries. -/
def WFA (a : SparseArray) : Prop := ∀ (b : Nat) (p : List EId), a[b]? = some (some p) → p.length = BUCKET_SIZE

/-- The entry at index `i`, if its page is allocated. -/
def slot (a : SparseArray) (i : Nat) : Option EId :=
  match a[i / BUCKET_SIZE]? with
  | some (some p) => p[i % BUCKET_SIZE]?
  | _ => none

/-- Is the page of index `i` allocated. -/
def has (a : SparseArray) (b : Nat) : Prop := ∃ p, a[b]? = some (some p)

/-- The entry at index `i`, `dead` where there is no page. -/
def look (a : SparseArray) (i : Nat) : EId := (slot a i).getD EId.dead

theorem wfa_new : WFA new := by intro b p h; simp [new] at h

theorem bs_pos : 0 < BUCKET_SIZE := by decide

theorem lt_of_some {α} {l : List α} {i : Nat} {a : α} (h : l[i]? = some a) : i < l.length := by
  rcases Nat.lt_or_ge i l.length with h' | h'
  · exact h'
  · rw [List.getElem?_eq_none h'] at h; cases h

theorem has_iff {a : SparseArray} (hw : WFA a) (i : Nat) :
    has a (i / BUCKET_SIZE) ↔ ∃ x, slot a i = some x := by
  unfold has slot
  constructor
  · rintro ⟨p, hp⟩
    rw [hp]
    have := hw _ _ hp
    have hm := Nat.mod_lt i bs_pos
    exact ⟨_, List.getElem?_eq_getElem (by omega)⟩
  · rintro ⟨x, hx⟩
    split at hx
    · rename_i p hp; exact ⟨p, hp⟩
    · cases hx

theorem get_eq {a : SparseArray} (hw : WFA a) (e : EId) : a.get e = .ok (slot a e.idx) := by
  unfold get slot EId.bucket EId.bucketIndex
  split
  · rename_i h; simp [h]
  · rename_i h; simp [h]
  · rename_i p h
    have := hw _ _ h
    have hm := Nat.mod_lt e.idx bs_pos
    have : ∃ x, p[e.idx % BUCKET_SIZE]? = some x := ⟨_, List.getElem?_eq_getElem (by omega)⟩
    obtain ⟨x, hx⟩ := this
    simp [h, hx]

theorem getU_eq {a : SparseArray} {e x : EId} (h : slot a e.idx = some x) : a.getU e = .ok x := by
  unfold slot at h
  unfold getU EId.bucket EId.bucketIndex
  split at h
  · rename_i p hp; simp [hp, h]
  · cases h

theorem idx_split {i j : Nat} : i = j ↔ i / BUCKET_SIZE = j / BUCKET_SIZE ∧ i % BUCKET_SIZE = j % BUCKET_SIZE := by
  constructor
  · rintro rfl; exact ⟨rfl, rfl⟩
  · rintro ⟨h1, h2⟩
    rw [← Nat.div_add_mod i BUCKET_SIZE, ← Nat.div_add_mod j BUCKET_SIZE, h1, h2]

theorem setU_ok {a : SparseArray} {e x : EId} (hw : WFA a) (h : slot a e.idx = some x) (v : EId) :
    ∃ a', a.setU e v = .ok a' ∧ WFA a' ∧
      (∀ i, slot a' i = if i = e.idx then some v else slot a i) ∧ ∀ b, has a' b ↔ has a b := by
  unfold slot at h
  split at h
  · rename_i p hp
    have hpl := hw _ _ hp
    have hm := Nat.mod_lt e.idx bs_pos
    have hb := lt_of_some hp
    refine ⟨a.set e.bucket (some (p.set e.bucketIndex v)), ?_, ?_, ?_, ?_⟩
    · unfold setU EId.bucket EId.bucketIndex
      simp only [hp]
      rw [if_pos (by omega)]
    · intro b q hq
      unfold EId.bucket at hq
      by_cases hbe : e.idx / BUCKET_SIZE = b
      · subst hbe
        rw [List.getElem?_set_self hb] at hq
        simp only [Option.some.injEq] at hq
        rw [← hq]; simpa using hpl
      · rw [List.getElem?_set_ne hbe] at hq
        exact hw b q hq
    · intro i
      unfold slot EId.bucket EId.bucketIndex
      by_cases hbe : e.idx / BUCKET_SIZE = i / BUCKET_SIZE
      · rw [← hbe, List.getElem?_set_self hb]
        simp only
        by_cases hie : i = e.idx
        · subst hie
          rw [if_pos rfl, List.getElem?_set_self (by omega)]
        · rw [if_neg hie, hp]
          rw [List.getElem?_set_ne]
          intro h2
          exact hie (idx_split.2 ⟨hbe.symm, h2.symm⟩)
      · rw [List.getElem?_set_ne hbe, if_neg]
        rintro rfl; exact hbe rfl
    · intro b
      unfold has EId.bucket EId.bucketIndex
      by_cases hbe : e.idx / BUCKET_SIZE = b
      · subst hbe
        rw [List.getElem?_set_self hb]
        exact ⟨fun _ => ⟨p, hp⟩, fun _ => ⟨_, rfl⟩⟩
      · rw [List.getElem?_set_ne hbe]
  · cases h

theorem grow_get (a : SparseArray) (n b : Nat) :
    (a.grow n)[b]? = if b < a.length then a[b]? else if b ≤ n then some none else none := by
  unfold grow
  split
  · rename_i hn
    split
    · rename_i hb; rw [List.getElem?_append_left hb]
    · rename_i hb
      rw [List.getElem?_append_right (by omega), List.getElem?_replicate]
      split <;> split <;> first | rfl | omega
  · rename_i hn
    split
    · rfl
    · rename_i hb
      rw [List.getElem?_eq_none (by omega), if_neg (by omega)]

theorem grow_some (a : SparseArray) (n b : Nat) (p : List EId) :
    (a.grow n)[b]? = some (some p) ↔ a[b]? = some (some p) := by
  rw [grow_get]
  split
  · rfl
  · rename_i hb
    rw [List.getElem?_eq_none (Nat.le_of_not_lt hb)]
    split <;> simp

theorem grow_has (a : SparseArray) (n b : Nat) : has (a.grow n) b ↔ has a b := by
  unfold has; simp only [grow_some]

theorem grow_wfa {a : SparseArray} (hw : WFA a) (n : Nat) : WFA (a.grow n) :=
  fun b p h => hw b p ((grow_some a n b p).1 h)

theorem grow_slot (a : SparseArray) (n i : Nat) : slot (a.grow n) i = slot a i := by
  unfold slot
  rw [grow_get]
  split
  · rename_i p h
    split at h
    · rw [h]
    · split at h <;> simp at h
  · rename_i h
    split
    · rename_i p hp
      have := lt_of_some hp
      rw [if_pos this] at h
      exact absurd hp (h p)
    · rfl

theorem grow_length (a : SparseArray) (n : Nat) : n < (a.grow n).length := by
  unfold grow; split
  · simp; omega
  · omega

theorem emptyPage_get (j : Nat) (h : j < BUCKET_SIZE) : emptyPage[j]? = some EId.dead := by
  unfold emptyPage; rw [List.getElem?_replicate, if_pos h]

theorem allocPage_ok {a : SparseArray} (hw : WFA a) {b : Nat} (hb : b < a.length) :
    ∃ a', allocPage a b = .ok a' ∧ WFA a' ∧ a'.length = a.length ∧
      (∀ c, has a' c ↔ has a c ∨ c = b) ∧ (∀ i, look a' i = look a i) := by
  unfold allocPage
  obtain ⟨q, hq⟩ : ∃ q, a[b]? = some q := ⟨_, List.getElem?_eq_getElem hb⟩
  rw [hq]
  cases q with
  | some p =>
    refine ⟨a, rfl, hw, rfl, ?_, fun _ => rfl⟩
    intro c
    constructor
    · exact fun h => .inl h
    · rintro (h | rfl)
      · exact h
      · exact ⟨p, hq⟩
  | none =>
    refine ⟨_, rfl, ?_, by simp, ?_, ?_⟩
    · intro c p hp
      by_cases hc : b = c
      · subst hc
        rw [List.getElem?_set_self hb] at hp
        simp only [Option.some.injEq] at hp
        subst hp; simp [emptyPage]
      · rw [List.getElem?_set_ne hc] at hp; exact hw c p hp
    · intro c
      unfold has
      by_cases hc : b = c
      · subst hc
        rw [List.getElem?_set_self hb]
        simp
      · rw [List.getElem?_set_ne hc]
        constructor
        · exact fun h => .inl h
        · rintro (h | rfl)
          · exact h
          · exact absurd rfl hc
    · intro i
      unfold look slot
      by_cases hc : b = i / BUCKET_SIZE
      · rw [← hc, List.getElem?_set_self hb, hq]
        simp only
        rw [emptyPage_get _ (Nat.mod_lt _ bs_pos)]; rfl
      · rw [List.getElem?_set_ne hc]

theorem grow_look (a : SparseArray) (n i : Nat) : look (a.grow n) i = look a i := by
  unfold look; rw [grow_slot]

theorem allocateAt_look {a : SparseArray} (hw : WFA a) {e : EId} (hd : e.isDead = false) :
    ∃ a', allocateAt a e = .ok a' ∧ WFA a' ∧ (∀ i, look a' i = look a i) ∧
      (∀ c, has a' c ↔ has a c ∨ c = e.idx / BUCKET_SIZE) := by
  unfold allocateAt
  rw [hd]
  obtain ⟨a', h1, h2, _, h3, h4⟩ := allocPage_ok (grow_wfa hw e.bucket) (grow_length a e.bucket)
  refine ⟨a', h1, h2, ?_, ?_⟩
  · intro i; rw [h4, grow_look]
  · intro c; rw [h3, grow_has]; rfl

theorem allocPages_ok {a : SparseArray} (hw : WFA a) {b n : Nat} (hb : b + n ≤ a.length) :
    ∃ a', allocPages a b n = .ok a' ∧ WFA a' ∧ a'.length = a.length ∧
      (∀ c, has a' c ↔ has a c ∨ (b ≤ c ∧ c < b + n)) ∧ (∀ i, look a' i = look a i) := by
  induction n generalizing a b with
  | zero =>
    refine ⟨a, rfl, hw, rfl, ?_, fun _ => rfl⟩
    intro c; constructor
    · exact fun h => .inl h
    · rintro (h | h); exact h; omega
  | succ n ih =>
    obtain ⟨a1, h1, h2, h3, h4, h5⟩ := allocPage_ok hw (b := b) (by omega)
    obtain ⟨a2, g1, g2, g3, g4, g5⟩ := ih h2 (b := b + 1) (by omega)
    refine ⟨a2, ?_, g2, by omega, ?_, ?_⟩
    · unfold allocPages
      simp only [h1, bind, Except.bind, g1]
    · intro c
      rw [g4, h4]
      constructor
      · rintro ((h | h) | h)
        · exact .inl h
        · exact .inr (by omega)
        · exact .inr (by omega)
      · rintro (h | h)
        · exact .inl (.inl h)
        · by_cases hc : c = b
          · exact .inl (.inr hc)
          · exact .inr (by omega)
    · intro i; rw [g5, h5]

theorem bulkAllocate_look {a : SparseArray} (hw : WFA a) {s e : EId} (hle : s.idx ≤ e.idx) :
    ∃ a', bulkAllocate a s e = .ok a' ∧ WFA a' ∧ (∀ i, look a' i = look a i) ∧
      (∀ c, has a' c ↔ has a c ∨ (s.idx / BUCKET_SIZE ≤ c ∧ c ≤ e.idx / BUCKET_SIZE)) := by
  have hd : s.bucket ≤ e.bucket := Nat.div_le_div_right hle
  have hg := grow_length a e.bucket
  obtain ⟨a', h1, h2, _, h3, h4⟩ := allocPages_ok (grow_wfa hw e.bucket) (b := s.bucket)
    (n := e.bucket + 1 - s.bucket) (by omega)
  refine ⟨a', h1, h2, ?_, ?_⟩
  · intro i; rw [h4, grow_look]
  · intro c
    rw [h3, grow_has]
    unfold EId.bucket at hd ⊢
    constructor
    · rintro (h | h)
      · exact .inl h
      · exact .inr (by omega)
    · rintro (h | h)
      · exact .inl h
      · exact .inr (by omega)

/-- The same for any two ids, in any order: no entry changes. -/
theorem bulkAllocate_any {a : SparseArray} (hw : WFA a) (s e : EId) :
    ∃ a', bulkAllocate a s e = .ok a' ∧ WFA a' ∧ ∀ i, look a' i = look a i := by
  by_cases hd : s.bucket ≤ e.bucket
  · have hg := grow_length a e.bucket
    obtain ⟨a', h1, h2, _, _, h4⟩ := allocPages_ok (grow_wfa hw e.bucket) (b := s.bucket)
      (n := e.bucket + 1 - s.bucket) (by omega)
    exact ⟨a', h1, h2, fun i => by rw [h4, grow_look]⟩
  · refine ⟨a.grow e.bucket, ?_, grow_wfa hw e.bucket, fun i => grow_look _ _ _⟩
    unfold bulkAllocate
    rw [show e.bucket + 1 - s.bucket = 0 by omega]
    rfl

/-! ## The flat table reading -/

theorem slot_eq {a : SparseArray} (hw : WFA a) (i : Nat) :
    (¬ has a (i / BUCKET_SIZE) ∧ slot a i = none ∧ look a i = EId.dead) ∨
    (has a (i / BUCKET_SIZE) ∧ slot a i = some (look a i)) := by
  unfold look
  cases h : slot a i with
  | none =>
    left
    refine ⟨?_, rfl, rfl⟩
    rw [has_iff hw, h]; rintro ⟨x, hx⟩; cases hx
  | some x =>
    right
    refine ⟨?_, rfl⟩
    rw [has_iff hw, h]; exact ⟨x, rfl⟩

theorem get_look {a : SparseArray} (hw : WFA a) (e : EId) :
    a.get e = .ok (some (look a e.idx)) ∨ (a.get e = .ok none ∧ look a e.idx = EId.dead) := by
  rw [get_eq hw]
  rcases slot_eq hw e.idx with ⟨_, h, h'⟩ | ⟨_, h⟩
  · right; rw [h]; exact ⟨rfl, h'⟩
  · left; rw [h]

theorem getU_look {a : SparseArray} (hw : WFA a) {e : EId} (h : has a (e.idx / BUCKET_SIZE)) :
    a.getU e = .ok (look a e.idx) := by
  rcases slot_eq hw e.idx with ⟨h', _⟩ | ⟨_, h'⟩
  · exact absurd h h'
  · exact getU_eq h'

theorem setU_look {a : SparseArray} (hw : WFA a) {e : EId} (h : has a (e.idx / BUCKET_SIZE)) (v : EId) :
    ∃ a', a.setU e v = .ok a' ∧ WFA a' ∧
      (∀ i, look a' i = if i = e.idx then v else look a i) ∧ ∀ b, has a' b ↔ has a b := by
  obtain ⟨x, hx⟩ := (has_iff hw e.idx).1 h
  obtain ⟨a', h1, h2, h3, h4⟩ := setU_ok hw hx v
  refine ⟨a', h1, h2, ?_, h4⟩
  intro i
  unfold look
  rw [h3]; split <;> rfl

end Verif.SparseArray
