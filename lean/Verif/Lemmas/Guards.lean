import Verif.Spec.Guards
import Verif.Lemmas.Borrow

/-!
# The invariant behind the borrows a world hands out
-/
namespace Verif.Guards
open Borrow (Cell Ev Got)

/-- How many hold a borrow of cell `s` itself. -/
def ownCount (ts : List Token) (s : Nat) (x : Bool) : Nat :=
  ts.countP fun t => t.own && (t.storage == s && t.exclusive == x)

/-- How many hold a `SharedBorrow` of `AllStorages` besides. -/
def allCount (ts : List Token) : Nat := ts.countP fun t => t.all

/-- `ex` is the one whose destructor is running, if any. -/
structure Inv (ex : Option Nat) (st : St) : Prop where
  cell : ∀ s, Borrow.Inv (st.cell s)
  reb : ∀ s, (st.cell s).reborrowed = 0
  excl : ∀ s, (st.cell s).exclusive = ownCount st.toks s true
  shared : ∀ s, (st.cell s).shared = ownCount st.toks s false + if s = 0 then allCount st.toks else 0
  kind : ∀ (i : Nat) t, st.toks[i]? = some t →
    (t.storage = 0 ↔ t.kind = .all) ∧ (t.kind = .all → t.all = false ∧ t.live = t.own)
  born : ∀ (i : Nat) t, st.toks[i]? = some t → t.own = true → t.storage ≠ 0 → t.born = st.epoch
  cover : ∀ (i : Nat) t, some i ≠ ex → st.toks[i]? = some t → t.storage ≠ 0 → t.there = true →
    t.all = true ∨ ∃ (p : Nat) (u : Token), t.parent = some p ∧ st.toks[p]? = some u ∧ u.kind = .all ∧ u.own = true

/-- What an operation did to a cell. -/
structure Moved (c c' : Cell) (ds dx : Int) : Prop where
  inv : Borrow.Inv c'
  reb : c'.reborrowed = c.reborrowed
  shared : (c'.shared : Int) = c.shared + ds
  excl : (c'.exclusive : Int) = c.exclusive + dx

theorem record_guard {c c' : Cell} {r : Nat × Got} {add : Cell → Cell} (h : c.record r add = (c', .guard)) :
    c' = add { c with word := r.1 } := by
  unfold Cell.record at h
  dsimp only at h
  split at h <;> cases h
  rfl

theorem record_error {c c' : Cell} {r : Nat × Got} {add : Cell → Cell} (h : c.record r add = (c', .error)) :
    c' = { c with word := r.1 } := by
  unfold Cell.record at h
  dsimp only at h
  split at h <;> cases h
  rfl

theorem act_ok {st st' : St} {s : Nat} {e : Ev} {b : Bool} (h : st.act s e = .ok (st', b)) :
    ∃ c g, (st.cell s).step e = some (c, g) ∧ st' = st.setCell s c ∧
      (b = true ∧ g = .guard ∨ b = false ∧ g = .error) := by
  unfold St.act at h
  split at h <;> cases h
  · rename_i hs
    exact ⟨_, _, hs, rfl, .inl ⟨rfl, rfl⟩⟩
  · rename_i hs
    exact ⟨_, _, hs, rfl, .inr ⟨rfl, rfl⟩⟩

/-- Borrowing. -/
theorem act_borrow {st st' : St} {s : Nat} {x b : Bool} (hi : Borrow.Inv (st.cell s)) (hs : Borrow.Small (st.cell s))
    (h : st.act s (if x then .write else .read) = .ok (st', b)) :
    ∃ c, st' = st.setCell s c ∧
      Moved (st.cell s) c (if b && !x then 1 else 0) (if b && x then 1 else 0) := by
  obtain ⟨c, g, h1, h2, h3⟩ := act_ok h
  have hinv := hi.step hs h1
  refine ⟨c, h2, ?_⟩
  cases x with
  | false =>
    simp only [Bool.false_eq_true, if_false, Cell.step, Option.some.injEq] at h1
    rcases h3 with ⟨rfl, rfl⟩ | ⟨rfl, rfl⟩
    · rw [record_guard h1] at hinv ⊢
      exact ⟨hinv, rfl, by simp [Cell.addShared], by simp [Cell.addShared]⟩
    · rw [record_error h1] at hinv ⊢
      exact ⟨hinv, rfl, by simp, by simp⟩
  | true =>
    simp only [if_true, Cell.step, Option.some.injEq] at h1
    rcases h3 with ⟨rfl, rfl⟩ | ⟨rfl, rfl⟩
    · rw [record_guard h1] at hinv ⊢
      exact ⟨hinv, rfl, by simp [Cell.addExclusive], by simp [Cell.addExclusive]⟩
    · rw [record_error h1] at hinv ⊢
      exact ⟨hinv, rfl, by simp, by simp⟩

/-- Giving back. -/
theorem act_drop {st : St} {s : Nat} {x : Bool} (hi : Borrow.Inv (st.cell s)) (hs : Borrow.Small (st.cell s))
    (hr : (st.cell s).reborrowed = 0) (hn : if x then (st.cell s).exclusive ≠ 0 else (st.cell s).shared ≠ 0) :
    ∃ c, st.act s (if x then .dropExclusive else .dropShared) = .ok (st.setCell s c, true) ∧
      Moved (st.cell s) c (if x then 0 else -1) (if x then -1 else 0) ∧ Borrow.Small c := by
  cases x with
  | false =>
    simp only [Bool.false_eq_true, if_false] at hn ⊢
    have h1 : (st.cell s).step .dropShared = some ({ (st.cell s) with
        word := Borrow.dropShared (st.cell s).word, shared := (st.cell s).shared - 1 }, .guard) := by
      simp only [Cell.step, if_neg hn]
    refine ⟨_, by unfold St.act; rw [h1], ⟨hi.step hs h1, rfl, ?_, ?_⟩, ?_, hs.2⟩
    · show (((st.cell s).shared - 1 : Nat) : Int) = _
      omega
    · show ((st.cell s).exclusive : Int) = _
      omega
    · show (st.cell s).shared - 1 + 1 < _
      have := hs.1
      omega
  | true =>
    simp only [if_true] at hn ⊢
    have h1 : (st.cell s).step .dropExclusive = some ({ (st.cell s) with
        word := Borrow.dropExclusive (st.cell s).word, exclusive := (st.cell s).exclusive - 1 }, .guard) := by
      simp only [Cell.step]
      rw [if_neg]
      rintro (h | h)
      · exact hn h
      · exact h hr
    refine ⟨_, by unfold St.act; rw [h1], ⟨hi.step hs h1, rfl, ?_, ?_⟩, hs⟩
    · show ((st.cell s).shared : Int) = _
      omega
    · show (((st.cell s).exclusive - 1 : Nat) : Int) = _
      omega

theorem setCell_cell (st : St) (s : Nat) (c : Cell) (k : Nat) :
    (st.setCell s c).cell k = if k = s then c else st.cell k := rfl

theorem ownCount_append (ts : List Token) (t : Token) (s : Nat) (x : Bool) :
    (ownCount (ts ++ [t]) s x : Int) =
      ownCount ts s x + if t.own && (t.storage == s && t.exclusive == x) then 1 else 0 := by
  unfold ownCount
  rw [List.countP_append, List.countP_singleton]
  split <;> omega

theorem allCount_append (ts : List Token) (t : Token) :
    (allCount (ts ++ [t]) : Int) = allCount ts + if t.all then 1 else 0 := by
  unfold allCount
  rw [List.countP_append, List.countP_singleton]
  split <;> omega

theorem countP_set_int {α : Type} (p : α → Bool) (l : List α) (i : Nat) (a b : α) (h : l[i]? = some a) :
    ((l.set i b).countP p : Int) = l.countP p - (if p a then 1 else 0) + if p b then 1 else 0 := by
  obtain ⟨hi, ha⟩ := List.getElem?_eq_some_iff.1 h
  rw [List.countP_set hi, ha]
  have : p a = true → 0 < l.countP p := fun hp => List.countP_pos_iff.2 ⟨a, List.mem_of_getElem? h, hp⟩
  cases hpa : p a with
  | false =>
    simp only [Bool.false_eq_true, if_false]
    split <;> omega
  | true =>
    have := this hpa
    simp only [if_true]
    split <;> omega

theorem ownCount_set {ts : List Token} {i : Nat} {t : Token} (h : ts[i]? = some t) (u : Token) (s : Nat) (x : Bool) :
    (ownCount (ts.set i u) s x : Int) = ownCount ts s x - (if t.own && (t.storage == s && t.exclusive == x) then 1 else 0)
      + if u.own && (u.storage == s && u.exclusive == x) then 1 else 0 :=
  countP_set_int _ _ _ _ _ h

theorem allCount_set {ts : List Token} {i : Nat} {t : Token} (h : ts[i]? = some t) (u : Token) :
    (allCount (ts.set i u) : Int) = allCount ts - (if t.all then 1 else 0) + if u.all then 1 else 0 :=
  countP_set_int _ _ _ _ _ h

theorem set_get {ts : List Token} {i : Nat} {t : Token} (h : ts[i]? = some t) (u : Token) (j : Nat) :
    (ts.set i u)[j]? = if j = i then some u else ts[j]? := by
  obtain ⟨hi, _⟩ := List.getElem?_eq_some_iff.1 h
  rw [List.getElem?_set]
  by_cases hj : i = j
  · subst hj; simp [hi]
  · rw [if_neg hj, if_neg (Ne.symm hj)]

/-- What a value holds of cell `s`, as a number. -/
def Token.s (t : Token) (s : Nat) : Int :=
  (if t.own && (t.storage == s && t.exclusive == false) then 1 else 0) + if s = 0 then (if t.all then 1 else 0) else 0

def Token.x (t : Token) (s : Nat) : Int := if t.own && (t.storage == s && t.exclusive == true) then 1 else 0

theorem Moved.refl {c : Cell} (h : Borrow.Inv c) : Moved c c 0 0 := ⟨h, rfl, by omega, by omega⟩

theorem noChild {st : St} {i : Nat} (h : st.hasChild i = false) {j : Nat} {t : Token} (hj : st.toks[j]? = some t)
    (hp : t.parent = some i) : t.there = false := by
  unfold St.hasChild at h
  rw [List.any_eq_false] at h
  have := h t (List.mem_of_getElem? hj)
  simp only [hp, beq_self_eq_true, Bool.true_and, Bool.not_eq_true] at this
  exact this

/-- One value changes from `t` to `u`, the cells accordingly. -/
theorem Inv.change {ex ex' : Option Nat} {st : St} (h : Inv ex st) {i : Nat} {t : Token} (hi : st.toks[i]? = some t) (u : Token)
    (cell' : Nat → Cell)
    (hc : ∀ s, Moved (st.cell s) (cell' s) (u.s s - t.s s) (u.x s - t.x s))
    (hk : u.storage = t.storage ∧ u.kind = t.kind ∧ u.parent = t.parent)
    (hall : u.kind = .all → u.all = false ∧ u.live = u.own)
    (hborn : u.own = true → u.storage ≠ 0 → u.born = st.epoch)
    (hex : ∀ j, j ≠ i → some j ≠ ex) (hex' : ∀ j, j ≠ i → some j ≠ ex')
    (hcov : some i ≠ ex' → u.storage ≠ 0 → u.there = true →
      u.all = true ∨ ∃ (p : Nat) (v : Token), u.parent = some p ∧ st.toks[p]? = some v ∧ v.kind = .all ∧ v.own = true)
    (hpar : t.kind = .all → u.own = true ∨ st.hasChild i = false) :
    Inv ex' { st with cell := cell', toks := st.toks.set i u } := by
  have hcell : ∀ (j : Nat) v, (st.toks.set i u)[j]? = some v → j = i ∧ v = u ∨ j ≠ i ∧ st.toks[j]? = some v := by
    intro j v hj
    rw [set_get hi] at hj
    split at hj
    · injection hj with hj; exact .inl ⟨by assumption, hj.symm⟩
    · exact .inr ⟨by assumption, hj⟩
  refine ⟨fun s => (hc s).inv, fun s => (hc s).reb.trans (h.reb s), fun s => ?_, fun s => ?_, fun j v hj => ?_,
    fun j v hj ho hs => ?_, fun j v hje hj hs ht => ?_⟩
  · have h1 := (hc s).excl
    have h2 := h.excl s
    have h3 := ownCount_set hi u s true
    unfold Token.x at h1
    show (cell' s).exclusive = ownCount (st.toks.set i u) s true
    omega
  · have h1 := (hc s).shared
    have h2 := h.shared s
    have h3 := ownCount_set hi u s false
    have h4 := allCount_set hi u
    unfold Token.s at h1
    show (cell' s).shared = ownCount (st.toks.set i u) s false + if s = 0 then allCount (st.toks.set i u) else 0
    by_cases hs : s = 0
    · simp only [if_pos hs] at h1 h2 ⊢
      omega
    · simp only [if_neg hs] at h1 h2 ⊢
      omega
  · rcases hcell j v hj with ⟨rfl, rfl⟩ | ⟨_, hj⟩
    · refine ⟨?_, hall⟩
      rw [hk.1, hk.2.1]
      exact (h.kind j t hi).1
    · exact h.kind j v hj
  · rcases hcell j v hj with ⟨rfl, rfl⟩ | ⟨_, hj⟩
    · exact hborn ho hs
    · exact h.born j v hj ho hs
  · have hkeep : ∀ (p : Nat) (w : Token), v.parent = some p → st.toks[p]? = some w → w.kind = .all → w.own = true →
        ∃ (q : Nat) (w' : Token), v.parent = some q ∧ (st.toks.set i u)[q]? = some w' ∧ w'.kind = .all ∧ w'.own = true := by
      intro p w hp hw hwk hwo
      by_cases hpi : p = i
      · subst hpi
        rw [hi] at hw
        cases hw
        rcases hpar hwk with hu | hno
        · exact ⟨p, u, hp, by rw [set_get hi, if_pos rfl], by rw [hk.2.1]; exact hwk, hu⟩
        · exfalso
          rcases hcell j v hj with ⟨rfl, rfl⟩ | ⟨_, hj⟩
          · rw [hk.1] at hs
            exact hs ((h.kind _ _ hi).1.2 hwk)
          · rw [noChild hno hj hp] at ht
            cases ht
      · exact ⟨p, w, hp, by rw [set_get hi, if_neg hpi]; exact hw, hwk, hwo⟩
    have : v.all = true ∨ ∃ (p : Nat) (w : Token), v.parent = some p ∧ st.toks[p]? = some w ∧ w.kind = .all ∧ w.own = true := by
      rcases hcell j v hj with ⟨rfl, rfl⟩ | ⟨_, hj⟩
      · exact hcov hje hs ht
      · exact h.cover j v (hex j (by assumption)) hj hs ht
    rcases this with hh | ⟨p, w, a, b, c, d⟩
    · exact .inl hh
    · exact .inr (hkeep p w a b c d)

/-- One value is made. -/
theorem Inv.add {st : St} (h : Inv none st) (u : Token) (cell' : Nat → Cell)
    (hc : ∀ s, Moved (st.cell s) (cell' s) (u.s s) (u.x s))
    (hkind : (u.storage = 0 ↔ u.kind = .all) ∧ (u.kind = .all → u.all = false ∧ u.live = u.own))
    (hborn : u.own = true → u.storage ≠ 0 → u.born = st.epoch)
    (hcov : u.storage ≠ 0 →
      u.all = true ∨ ∃ (p : Nat) (v : Token), u.parent = some p ∧ st.toks[p]? = some v ∧ v.kind = .all ∧ v.own = true) :
    Inv none { st with cell := cell', toks := st.toks ++ [u] } := by
  have hcell : ∀ (j : Nat) v, (st.toks ++ [u])[j]? = some v → v = u ∨ st.toks[j]? = some v := by
    intro j v hj
    rw [List.getElem?_append] at hj
    split at hj
    · exact .inr hj
    · left
      have := List.mem_of_getElem? hj
      exact List.mem_singleton.1 this
  have hold : ∀ (p : Nat) (v : Token), st.toks[p]? = some v → (st.toks ++ [u])[p]? = some v := by
    intro p v hp
    obtain ⟨hl, _⟩ := List.getElem?_eq_some_iff.1 hp
    rw [List.getElem?_append, if_pos hl]
    exact hp
  refine ⟨fun s => (hc s).inv, fun s => (hc s).reb.trans (h.reb s), fun s => ?_, fun s => ?_, fun j v hj => ?_,
    fun j v hj ho hs => ?_, fun j v hje hj hs ht => ?_⟩
  · have h1 := (hc s).excl
    have h2 := h.excl s
    have h3 := ownCount_append st.toks u s true
    unfold Token.x at h1
    show (cell' s).exclusive = ownCount (st.toks ++ [u]) s true
    omega
  · have h1 := (hc s).shared
    have h2 := h.shared s
    have h3 := ownCount_append st.toks u s false
    have h4 := allCount_append st.toks u
    unfold Token.s at h1
    show (cell' s).shared = ownCount (st.toks ++ [u]) s false + if s = 0 then allCount (st.toks ++ [u]) else 0
    by_cases hs : s = 0
    · simp only [if_pos hs] at h1 h2 ⊢
      omega
    · simp only [if_neg hs] at h1 h2 ⊢
      omega
  · rcases hcell j v hj with rfl | hj
    · exact hkind
    · exact h.kind j v hj
  · rcases hcell j v hj with rfl | hj
    · exact hborn ho hs
    · exact h.born j v hj ho hs
  · have : v.all = true ∨ ∃ (p : Nat) (w : Token), v.parent = some p ∧ st.toks[p]? = some w ∧ w.kind = .all ∧ w.own = true := by
      rcases hcell j v hj with rfl | hj
      · exact hcov hs
      · exact h.cover j v hje hj hs ht
    rcases this with hh | ⟨p, w, a, b, c, d⟩
    · exact .inl hh
    · exact .inr ⟨p, w, a, hold p w b, c, d⟩

/-- Only cells change. -/
theorem Inv.cells {ex : Option Nat} {st : St} (h : Inv ex st) (cell' : Nat → Cell)
    (hc : ∀ s, Moved (st.cell s) (cell' s) 0 0) : Inv ex { st with cell := cell' } :=
  ⟨fun s => (hc s).inv, fun s => (hc s).reb.trans (h.reb s),
    fun s => by have := (hc s).excl; have := h.excl s; show (cell' s).exclusive = ownCount st.toks s true; omega,
    fun s => by
      have := (hc s).shared
      have := h.shared s
      show (cell' s).shared = ownCount st.toks s false + if s = 0 then allCount st.toks else 0
      omega, h.kind, h.born, h.cover⟩

theorem own_pos {ts : List Token} {i : Nat} {t : Token} (hi : ts[i]? = some t) (ho : t.own = true) :
    0 < ownCount ts t.storage t.exclusive :=
  List.countP_pos_iff.2 ⟨t, List.mem_of_getElem? hi, by simp [ho]⟩

theorem all_pos {ts : List Token} {i : Nat} {t : Token} (hi : ts[i]? = some t) (ho : t.all = true) : 0 < allCount ts :=
  List.countP_pos_iff.2 ⟨t, List.mem_of_getElem? hi, ho⟩

/-- What the next step of the destructor leaves. -/
def Token.next (t : Token) : Token :=
  if t.all && (t.kind.allFirst || !t.own) then { t with all := false, live := false }
  else { t with own := false, live := false }

theorem next_there (t : Token) : t.next.next.there = false := by
  unfold Token.next Token.there
  cases ha : t.all <;> cases ho : t.own <;> cases hf : t.kind.allFirst <;> simp [ha, ho, hf]

theorem moved_at {st : St} {ex : Option Nat} (h : Inv ex st) {s : Nat} {c : Cell} {ds dx : Nat → Int}
    (hm : Moved (st.cell s) c (ds s) (dx s)) (h0 : ∀ k, k ≠ s → ds k = 0 ∧ dx k = 0) (k : Nat) :
    Moved (st.cell k) ((st.setCell s c).cell k) (ds k) (dx k) := by
  rw [setCell_cell]
  by_cases hk : k = s
  · subst hk; rw [if_pos rfl]; exact hm
  · rw [if_neg hk, (h0 k hk).1, (h0 k hk).2]; exact .refl (h.cell k)

theorem releaseStep_spec {st : St} {ex ex' : Option Nat} (h : Inv ex st) {i : Nat} {t : Token}
    (hi : st.toks[i]? = some t) (hs : ∀ s, Borrow.Small (st.cell s))
    (hex : ∀ j, j ≠ i → some j ≠ ex) (hex' : ∀ j, j ≠ i → some j ≠ ex')
    (hno : st.hasChild i = false)
    (hcov : some i ≠ ex' → t.next.there = true → t.next.all = true) :
    ∃ st', st.releaseStep i t = .ok st' ∧ Inv ex' st' ∧ st'.toks[i]? = some t.next ∧
      (∀ s, Borrow.Small (st'.cell s)) ∧ st'.hasChild i = false ∧ st'.epoch = st.epoch := by
  have hkt := h.kind i t hi
  have hchild : ∀ (st' : St) u, st'.toks = st.toks.set i u → u.parent = t.parent → (u.there = true → t.there = true) →
      st'.hasChild i = false := by
    intro st' u htoks hp hth
    unfold St.hasChild
    rw [List.any_eq_false]
    intro v hv
    obtain ⟨j, hj⟩ := List.mem_iff_getElem?.1 hv
    rw [htoks, set_get hi] at hj
    split at hj
    · injection hj with hj
      subst hj
      intro hc
      simp only [Bool.and_eq_true, beq_iff_eq] at hc
      have := noChild hno hi (hp ▸ hc.1)
      rw [hth hc.2] at this
      cases this
    · intro hc
      simp only [Bool.and_eq_true, beq_iff_eq] at hc
      rw [noChild hno hj hc.1] at hc
      cases hc.2
  have hsmall : ∀ s c, Borrow.Small c → ∀ k, Borrow.Small ((st.setCell s c).cell k) := by
    intro s c hc k
    rw [setCell_cell]
    split
    · exact hc
    · exact hs k
  unfold St.releaseStep
  unfold Token.next at hcov ⊢
  by_cases hb : (t.all && (t.kind.allFirst || !t.own)) = true
  · rw [if_pos hb] at hcov
    rw [if_pos hb, if_pos hb]
    have ha : t.all = true := by cases hta : t.all <;> simp_all
    have hk : t.kind ≠ .all := fun hk => by rw [(hkt.2 hk).1] at ha; cases ha
    have hn : (st.cell 0).shared ≠ 0 := by
      have h1 := h.shared 0
      have h2 := all_pos hi ha
      simp only [if_true] at h1
      omega
    obtain ⟨c, h1, h2, h3⟩ := act_drop (x := false) (h.cell 0) (hs 0) (h.reb 0) hn
    simp only [Bool.false_eq_true, if_false] at h1 h2
    refine ⟨(st.setCell 0 c).setTok i { t with all := false, live := false }, ?_, ?_, ?_, ?_, ?_, rfl⟩
    · unfold St.giveBackAll
      simp only [h1, bind, Except.bind]
    · refine h.change hi { t with all := false, live := false } _ (moved_at h ?_ ?_) ⟨rfl, rfl, rfl⟩
        (fun hk' => absurd hk' hk) (fun ho h0 => h.born i t hi ho h0) hex hex' (fun he _ ht => ?_)
        (fun hk' => absurd hk' hk)
      · refine ⟨h2.inv, h2.reb, ?_, ?_⟩
        · rw [h2.shared]
          simp [Token.s, ha]
          omega
        · rw [h2.excl]
          simp [Token.x]
      · intro k hk0
        simp [Token.s, Token.x, hk0]
      · have := hcov he ht
        cases this
    · show (st.toks.set i _)[i]? = _
      rw [set_get hi, if_pos rfl]
    · exact hsmall 0 c h3
    · exact hchild _ _ rfl rfl (fun hu => by
        simp only [Token.there, Bool.or_false, Bool.false_or] at hu
        simp [Token.there, hu])
  · rw [if_neg hb] at hcov
    rw [if_neg hb, if_neg hb]
    cases ho : t.own with
    | true =>
      simp only [if_true]
      have hn : if t.exclusive then (st.cell t.storage).exclusive ≠ 0 else (st.cell t.storage).shared ≠ 0 := by
        have h1 := own_pos hi ho
        cases hx : t.exclusive with
        | true =>
          rw [hx, ← h.excl] at h1
          simp only [if_true]; omega
        | false =>
          rw [hx] at h1
          have := h.shared t.storage
          simp only [Bool.false_eq_true, if_false]; omega
      obtain ⟨c, h1, h2, h3⟩ := act_drop (x := t.exclusive) (h.cell t.storage) (hs _) (h.reb _) hn
      refine ⟨(st.setCell t.storage c).setTok i { t with own := false, live := false }, ?_, ?_, ?_, ?_, ?_, rfl⟩
      · unfold St.giveBack
        rw [if_neg (fun hc => hc.2 (h.born i t hi ho hc.1))]
        simp only [h1, bind, Except.bind]
      · refine h.change hi { t with own := false, live := false } _ (moved_at h ?_ ?_) ⟨rfl, rfl, rfl⟩
          (fun hk' => ⟨(hkt.2 hk').1, rfl⟩) (fun ho h0 => by cases ho) hex hex'
          (fun he _ ht => .inl (hcov he ht)) (fun _ => .inr hno)
        · refine ⟨h2.inv, h2.reb, ?_, ?_⟩
          · rw [h2.shared]
            cases hx : t.exclusive <;> simp [Token.s, ho, hx] <;> (repeat' split) <;> omega
          · rw [h2.excl]
            cases hx : t.exclusive <;> simp [Token.x, ho, hx]
        · intro k hk0
          have : (t.storage == k) = false := by simp; exact fun h => hk0 h.symm
          simp [Token.s, Token.x, this]
      · show (st.toks.set i _)[i]? = _
        rw [set_get hi, if_pos rfl]
      · exact hsmall _ c h3
      · exact hchild _ _ rfl rfl (fun hu => by simp [Token.there, ho])
    | false =>
      have ha : t.all = false := by cases hta : t.all <;> simp_all
      simp only [Bool.false_eq_true, if_false]
      refine ⟨_, rfl, ?_, ?_, hs, ?_, rfl⟩
      · refine h.change hi { t with own := false, live := false } st.cell (fun s => ?_) ⟨rfl, rfl, rfl⟩
          (fun hk' => ⟨(hkt.2 hk').1, rfl⟩) (fun ho h0 => by cases ho) hex hex'
          (fun he _ ht => .inl (hcov he ht)) (fun _ => .inr hno)
        have : Moved (st.cell s) (st.cell s) 0 0 := .refl (h.cell s)
        simpa [Token.s, Token.x, ho] using this
      · show (st.toks.set i _)[i]? = _
        rw [set_get hi, if_pos rfl]
      · exact hchild _ _ rfl rfl (fun hu => by simp [Token.there, ha] at hu)

theorem act_not_oob {st : St} {s : Nat} {x : Bool} : st.act s (if x then .write else .read) ≠ .error .oob := by
  unfold St.act
  cases x <;> simp only [Bool.false_eq_true, if_false, if_true, Cell.step] <;> split <;> simp_all

theorem dropSteps_spec {st : St} (h : Inv none st) {i : Nat} {t : Token} (hi : st.toks[i]? = some t)
    (hs : ∀ s, Borrow.Small (st.cell s)) (hno : st.hasChild i = false) :
    ∃ st', st.dropSteps i t = .ok st' ∧ Inv none st' := by
  obtain ⟨st1, h1, h2, h3, h4, h5, _⟩ := releaseStep_spec (ex' := some i) h hi hs (fun _ _ hc => by cases hc)
    (fun j hj hc => hj (by injection hc)) hno (fun hc => absurd rfl hc)
  obtain ⟨st2, k1, k2, _⟩ := releaseStep_spec (ex' := none) h2 h3 h4 (fun j hj hc => hj (by injection hc))
    (fun _ _ hc => by cases hc) h5 (fun _ hc => by rw [next_there] at hc; cases hc)
  refine ⟨st2, ?_, k2⟩
  unfold St.dropSteps
  simp only [h1, bind, Except.bind, h3]
  exact k1

/-- `&mut AllStorages` in use: nobody holds a borrow of a storage. -/
theorem Inv.alone {st : St} (h : Inv none st) {i : Nat} {t : Token} (hi : st.toks[i]? = some t) (hk : t.kind = .all)
    (hx : t.exclusive = true) (ho : t.own = true) (hno : st.hasChild i = false) {j : Nat} {u : Token}
    (hj : st.toks[j]? = some u) (hji : j ≠ i) : u.own = false ∧ u.all = false := by
  have hst : t.storage = 0 := (h.kind i t hi).1.2 hk
  have h1 := own_pos hi ho
  rw [hst, hx, ← h.excl] at h1
  have hm := (h.cell 0).mode
  have hex : (st.cell 0).exclusive = 1 ∧ (st.cell 0).shared = 0 := by omega
  have h2 := h.shared 0
  rw [if_pos rfl] at h2
  have hall : ∀ (k : Nat) v, st.toks[k]? = some v → v.all = false := by
    intro k v hv
    cases hva : v.all with
    | false => rfl
    | true =>
      have := all_pos hv hva
      omega
  have hzero : ∀ (k : Nat) v, st.toks[k]? = some v → v.own = true → v.storage = 0 → k = i := by
    intro k v hv hvo hv0
    cases hvx : v.exclusive with
    | false =>
      have := own_pos hv hvo
      rw [hv0, hvx] at this
      omega
    | true =>
      refine Classical.byContradiction fun hki => ?_
      -- removing number i leaves number k
      have h3 := ownCount_set hi { t with own := false } 0 true
      have h4 : 0 < ownCount (st.toks.set i { t with own := false }) v.storage v.exclusive :=
        own_pos (i := k) (by rw [set_get hi, if_neg hki]; exact hv) hvo
      rw [hv0, hvx] at h4
      have h5 := h.excl 0
      have e1 : (if t.own && (t.storage == 0 && t.exclusive == true) then (1 : Int) else 0) = 1 := by
        simp [ho, hst, hx]
      have e2 : (if ({ t with own := false } : Token).own && (({ t with own := false } : Token).storage == 0 &&
          ({ t with own := false } : Token).exclusive == true) then (1 : Int) else 0) = 0 := by simp
      rw [e1, e2] at h3
      omega
  refine ⟨?_, hall j u hj⟩
  cases huo : u.own with
  | false => rfl
  | true =>
    exfalso
    by_cases hu0 : u.storage = 0
    · exact hji (hzero j u hj huo hu0)
    · rcases h.cover j u (fun hc => by cases hc) hj hu0 (by simp [Token.there, huo]) with ha | ⟨p, v, a, b, c, d⟩
      · rw [hall j u hj] at ha; cases ha
      · have hp := hzero p v b d ((h.kind p v b).1.2 c)
        subst hp
        have := noChild hno hj a
        simp [Token.there, huo] at this

theorem Inv.step {st : St} (h : Inv none st) (hs : ∀ s, Borrow.Small (st.cell s)) {a : Act} {r : Res St}
    (hr : st.step a = some r)
    (hw : ∀ i t, a = .release i → st.toks[i]? = some t → t.kind.allFirst = false) :
    r ≠ .error .oob ∧ ∀ st', r = .ok st' → Inv none st' := by
  cases a with
  | «open» kind s x =>
    simp only [St.step] at hr
    split at hr
    · cases hr
    · rename_i hc
      injection hr with hr
      subst hr
      cases hact : st.act 0 .read with
      | error f =>
        refine ⟨?_, (fun st' hst => by simp only [bind, Except.bind] at hst; cases hst)⟩
        have := act_not_oob (st := st) (s := 0) (x := false)
        simp only [Bool.false_eq_true, if_false, hact] at this
        simp only [bind, Except.bind]
        intro hc; injection hc with hc; exact this (by rw [hc])
      | ok p =>
        obtain ⟨st1, got⟩ := p
        simp only [bind, Except.bind]
        refine ⟨by simp, fun st' hst => ?_⟩
        injection hst with hst
        subst hst
        obtain ⟨c, h1, h2⟩ := act_borrow (x := false) (h.cell 0) (hs 0) hact
        subst h1
        cases got with
        | true =>
          simp only [if_true]
          refine h.add ⟨kind, s, x, true, false, true, none, st.epoch⟩ _ (moved_at h ?_ ?_)
            ⟨⟨fun h0 => absurd (.inl h0) hc, fun hk => absurd (.inr hk) hc⟩, fun hk => absurd (.inr hk) hc⟩
            (fun ho => by cases ho) (fun _ => .inl rfl)
          · simpa [Token.s, Token.x] using h2
          · intro k hk; simp [Token.s, Token.x, hk]
        | false =>
          simp only [Bool.false_eq_true, if_false]
          exact h.cells _ (moved_at h (ds := fun _ => 0) (dx := fun _ => 0) (by simpa using h2) (fun _ _ => ⟨rfl, rfl⟩))
  | openAll x =>
    simp only [St.step] at hr
    injection hr with hr
    subst hr
    cases hact : st.act 0 (if x then .write else .read) with
    | error f =>
      refine ⟨?_, (fun st' hst => by simp only [bind, Except.bind] at hst; cases hst)⟩
      have := act_not_oob (st := st) (s := 0) (x := x)
      rw [hact] at this
      simp only [bind, Except.bind]
      intro hc; injection hc with hc; exact this (by rw [hc])
    | ok p =>
      obtain ⟨st1, got⟩ := p
      simp only [bind, Except.bind]
      refine ⟨by simp, fun st' hst => ?_⟩
      injection hst with hst
      subst hst
      obtain ⟨c, h1, h2⟩ := act_borrow (h.cell 0) (hs 0) hact
      subst h1
      cases got with
      | true =>
        simp only [if_true]
        refine h.add ⟨.all, 0, x, false, true, true, none, st.epoch⟩ _ (moved_at h ?_ ?_)
          ⟨⟨fun _ => rfl, fun _ => rfl⟩, fun _ => ⟨rfl, rfl⟩⟩ (fun _ h0 => absurd rfl h0) (fun h0 => absurd rfl h0)
        · cases x <;> simpa [Token.s, Token.x] using h2
        · intro k hk
          have : ((0 : Nat) == k) = false := by simp; exact fun h => hk h.symm
          simp [Token.s, Token.x, hk, this]
      | false =>
        simp only [Bool.false_eq_true, if_false]
        exact h.cells _ (moved_at h (ds := fun _ => 0) (dx := fun _ => 0) (by simpa using h2) (fun _ _ => ⟨rfl, rfl⟩))
  | openChild i kind s x =>
    simp only [St.step] at hr
    cases hi : st.toks[i]? with
    | none => rw [hi] at hr; cases hr
    | some t =>
      rw [hi] at hr
      simp only at hr
      split at hr
      · cases hr
      · rename_i hc
        injection hr with hr
        subst hr
        refine ⟨by simp, fun st' hst => ?_⟩
        injection hst with hst
        subst hst
        refine h.add ⟨kind, s, x, false, false, true, some i, st.epoch⟩ st.cell (fun k => ?_)
          ⟨⟨fun h0 => absurd (.inl h0) hc, fun hk => absurd (.inr (.inl hk)) hc⟩, fun hk => absurd (.inr (.inl hk)) hc⟩
          (fun ho => by cases ho) (fun _ => .inr ⟨i, t, rfl, hi, ?_, ?_⟩)
        · have : Moved (st.cell k) (st.cell k) 0 0 := .refl (h.cell k)
          simpa [Token.s, Token.x] using this
        · exact Classical.byContradiction fun hk => hc (.inr (.inr (.inl hk)))
        · cases ho : t.own with
          | true => rfl
          | false => exact absurd (.inr (.inr (.inr (.inr ho)))) hc
  | take i =>
    simp only [St.step] at hr
    cases hi : st.toks[i]? with
    | none => rw [hi] at hr; cases hr
    | some t =>
      rw [hi] at hr
      simp only at hr
      split at hr
      · cases hr
      · rename_i hc
        injection hr with hr
        subst hr
        have hl : t.live = true := by
          cases hl : t.live with
          | true => rfl
          | false => exact absurd (.inl hl) hc
        have ho : t.own = false := by
          cases ho : t.own with
          | false => rfl
          | true => exact absurd (.inr ho) hc
        have hk : t.kind ≠ .all := fun hk => by
          have := ((h.kind i t hi).2 hk).2
          rw [hl, ho] at this; cases this
        cases hact : st.act t.storage (if t.exclusive then .write else .read) with
        | error f =>
          refine ⟨?_, (fun st' hst => by simp only [bind, Except.bind] at hst; cases hst)⟩
          have := act_not_oob (st := st) (s := t.storage) (x := t.exclusive)
          rw [hact] at this
          simp only [bind, Except.bind]
          intro hc; injection hc with hc; exact this (by rw [hc])
        | ok p =>
          obtain ⟨st1, got⟩ := p
          simp only [bind, Except.bind]
          refine ⟨by simp, fun st' hst => ?_⟩
          injection hst with hst
          subst hst
          obtain ⟨c, h1, h2⟩ := act_borrow (h.cell _) (hs _) hact
          subst h1
          cases got with
          | true =>
            simp only [if_true]
            refine h.change hi { t with own := true, born := st.epoch } _ (moved_at h ?_ ?_) ⟨rfl, rfl, rfl⟩
              (fun hk' => absurd hk' hk) (fun _ _ => rfl) (fun _ _ hc => by cases hc) (fun _ _ hc => by cases hc)
              (fun _ h0 _ => h.cover i t (fun hc => by cases hc) hi h0 (by simp [Token.there, hl]))
              (fun hk' => absurd hk' hk)
            · cases hx : t.exclusive <;> rw [hx] at h2 <;>
              · refine ⟨h2.inv, h2.reb, ?_, ?_⟩
                · rw [h2.shared]; simp [Token.s, ho, hx]; try omega
                · rw [h2.excl]; simp [Token.x, ho, hx]
            · intro k hk0
              have : (t.storage == k) = false := by simp; exact fun h => hk0 h.symm
              simp [Token.s, Token.x, this]
          | false =>
            simp only [Bool.false_eq_true, if_false]
            exact h.cells _ (moved_at h (ds := fun _ => 0) (dx := fun _ => 0) (by simpa using h2) (fun _ _ => ⟨rfl, rfl⟩))
  | release i =>
    simp only [St.step] at hr
    cases hi : st.toks[i]? with
    | none => rw [hi] at hr; cases hr
    | some t =>
      rw [hi] at hr
      simp only at hr
      split at hr
      · cases hr
      · rename_i hc
        injection hr with hr
        have hno : st.hasChild i = false := by
          cases hh : st.hasChild i with
          | false => rfl
          | true => exact absurd (.inr hh) hc
        have hf := hw i t rfl hi
        obtain ⟨st1, h1, h2, _⟩ := releaseStep_spec (ex' := none) h hi hs (fun _ _ hc => by cases hc)
          (fun _ _ hc => by cases hc) hno (by
            intro _ hth
            unfold Token.next Token.there at *
            cases ha : t.all <;> cases ho : t.own <;> simp [ha, ho, hf] at hth ⊢)
        rw [h1] at hr
        subst hr
        exact ⟨by simp, fun st' hst => by injection hst with hst; rw [← hst]; exact h2⟩
  | drop i =>
    simp only [St.step] at hr
    cases hi : st.toks[i]? with
    | none => rw [hi] at hr; cases hr
    | some t =>
      rw [hi] at hr
      simp only at hr
      split at hr
      · cases hr
      · rename_i hc
        injection hr with hr
        have hno : st.hasChild i = false := by
          cases hh : st.hasChild i with
          | false => rfl
          | true => exact absurd (.inr hh) hc
        obtain ⟨st1, h1, h2⟩ := dropSteps_spec h hi hs hno
        rw [h1] at hr
        subst hr
        exact ⟨by simp, fun st' hst => by injection hst with hst; rw [← hst]; exact h2⟩
  | destroy i =>
    simp only [St.step] at hr
    cases hi : st.toks[i]? with
    | none => rw [hi] at hr; cases hr
    | some t =>
      rw [hi] at hr
      simp only at hr
      split at hr
      · cases hr
      · rename_i hc
        injection hr with hr
        subst hr
        refine ⟨by simp, fun st' hst => ?_⟩
        injection hst with hst
        subst hst
        have hk : t.kind = .all := Classical.byContradiction fun hk => hc (.inl hk)
        have hx : t.exclusive = true := by
          cases hx : t.exclusive with
          | true => rfl
          | false => exact absurd (.inr (.inl hx)) hc
        have ho : t.own = true := by
          cases ho : t.own with
          | true => rfl
          | false => exact absurd (.inr (.inr (.inr (.inl ho)))) hc
        have hno : st.hasChild i = false := by
          cases hh : st.hasChild i with
          | false => rfl
          | true => exact absurd (.inr (.inr (.inr (.inr hh)))) hc
        have hst0 : t.storage = 0 := (h.kind i t hi).1.2 hk
        have hnone : ∀ (j : Nat) u, st.toks[j]? = some u → u.own = true → j = i := by
          intro j u hj hu
          refine Classical.byContradiction fun hji => ?_
          have := (h.alone hi hk hx ho hno hj hji).1
          rw [hu] at this; cases this
        have hcount : ∀ s x, s ≠ 0 → ownCount st.toks s x = 0 := by
          intro s x hs0
          unfold ownCount
          rw [List.countP_eq_zero]
          intro u hu hc
          obtain ⟨j, hj⟩ := List.mem_iff_getElem?.1 hu
          simp only [Bool.and_eq_true, beq_iff_eq] at hc
          have := hnone j u hj hc.1
          subst this
          rw [hi] at hj
          cases hj
          exact hs0 (hc.2.1.symm.trans hst0)
        refine ⟨fun s => ?_, fun s => ?_, fun s => ?_, fun s => ?_, h.kind, fun j u hj hu hs0 => ?_, fun j u hje hj hs0 ht => h.cover j u hje hj hs0 ht⟩
        · show Borrow.Inv (if s = 0 then st.cell 0 else Cell.new)
          split
          · exact h.cell 0
          · exact .new
        · show (if s = 0 then st.cell 0 else Cell.new).reborrowed = 0
          split
          · exact h.reb 0
          · rfl
        · show (if s = 0 then st.cell 0 else Cell.new).exclusive = ownCount st.toks s true
          split
          · rename_i h0; rw [h0]; exact h.excl 0
          · rename_i h0; rw [hcount s true h0]; rfl
        · show (if s = 0 then st.cell 0 else Cell.new).shared = ownCount st.toks s false + if s = 0 then allCount st.toks else 0
          split
          · rename_i h0; have := h.shared 0; rw [if_pos rfl] at this; rw [h0]; exact this
          · rename_i h0; rw [hcount s false h0]; rfl
        · have := hnone j u hj hu
          subst this
          rw [hi] at hj
          cases hj
          exact absurd hst0 hs0
  | copyOut i =>
    simp only [St.step] at hr
    cases hi : st.toks[i]? with
    | none => rw [hi] at hr; cases hr
    | some t =>
      rw [hi] at hr
      simp only at hr
      split at hr
      · cases hr
      · injection hr with hr
        subst hr
        refine ⟨by simp, fun st' hst => ?_⟩
        injection hst with hst
        subst hst
        exact ⟨h.cell, h.reb, h.excl, h.shared, h.kind, h.born, h.cover⟩

end Verif.Guards
