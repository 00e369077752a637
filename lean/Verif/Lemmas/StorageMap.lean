import Verif.Spec.StorageMap

namespace Verif.StorageMap
open Verif.Borrow
open Verif.Threads (Made)

/-! ## The map -/

theorem look_mem {m : List (Id × Nat)} {id : Id} {a : Nat} (h : look m id = some a) : (id, a) ∈ m := by
  induction m with
  | nil => cases h
  | cons p rest ih =>
    obtain ⟨k, x⟩ := p
    unfold look at h
    split at h
    · next hk => cases h; subst hk; exact .head _
    · exact .tail _ (ih h)

theorem look_none {m : List (Id × Nat)} {id : Id} : look m id = none ↔ id ∉ m.map Prod.fst := by
  induction m with
  | nil => simp [look]
  | cons p rest ih =>
    obtain ⟨k, x⟩ := p
    unfold look
    split
    · next hk => subst hk; simp
    · next hk =>
      rw [ih]
      simp only [List.map_cons, List.mem_cons, not_or]
      exact ⟨fun h => ⟨fun e => hk e.symm, h⟩, fun h => h.2⟩

theorem look_of_mem {m : List (Id × Nat)} (hn : (m.map Prod.fst).Nodup) {id : Id} {a : Nat} (h : (id, a) ∈ m) :
    look m id = some a := by
  induction m with
  | nil => cases h
  | cons p rest ih =>
    obtain ⟨k, x⟩ := p
    rw [List.map_cons, List.nodup_cons] at hn
    unfold look
    rcases List.mem_cons.mp h with e | h
    · cases e; simp
    · split
      · next hk =>
        subst hk
        exact absurd (List.mem_map.mpr ⟨_, h, rfl⟩) hn.1
      · exact ih hn.2 h

theorem look_append {m : List (Id × Nat)} {k id : Id} {x : Nat} (hk : look m k = none) :
    look (m ++ [(k, x)]) id = if k = id then some x else look m id := by
  induction m with
  | nil => rfl
  | cons p rest ih =>
    obtain ⟨j, y⟩ := p
    unfold look at hk
    split at hk
    · cases hk
    · next hj =>
      show (if j = id then some y else look (rest ++ [(k, x)]) id) = _
      rw [ih hk]
      show _ = if k = id then some x else if j = id then some y else look rest id
      split
      · next h1 =>
        split
        · next h2 => exact absurd (h1.trans h2.symm) hj
        · rfl
      · rfl

theorem look_filter {m : List (Id × Nat)} {k id : Id} :
    look (m.filter (fun p => decide (p.1 ≠ k))) id = if k = id then none else look m id := by
  induction m with
  | nil => show none = _; split <;> rfl
  | cons p rest ih =>
    obtain ⟨j, y⟩ := p
    rw [List.filter_cons]
    by_cases hj : j = k
    · have : decide ((j, y).1 ≠ k) = false := by simp [hj]
      rw [this]
      simp only [Bool.false_eq_true, if_false]
      rw [ih]
      subst hj
      show _ = if j = id then none else if j = id then some y else look rest id
      split <;> rfl
    · have : decide ((j, y).1 ≠ k) = true := by simp [hj]
      rw [this]
      simp only [if_true]
      show (if j = id then some y else look (rest.filter _) id) = if k = id then none else if j = id then some y else look rest id
      rw [ih]
      split
      · next h1 =>
        split
        · next h2 => exact absurd (h1.trans h2.symm) hj
        · rfl
      · rfl

/-! ## The invariant -/

def nShared (gs : List Guard) (a : Nat) : Nat := gs.countP fun g => decide (g.box = a) && !g.excl
def nExcl (gs : List Guard) (a : Nat) : Nat := gs.countP fun g => decide (g.box = a) && g.excl

structure BoxOk (main : Nat) (gs : List Guard) (a : Nat) (b : Box) : Prop where
  shared : nShared gs a = b.shared
  excl : nExcl gs a = if b.excl then 1 else 0
  alone : b.excl = true → b.shared = 0
  one : b.isSync = false → b.send = none → b.shared ≤ 1
  home : ∀ t, b.send = some t → t = main
  types : ∀ g ∈ gs, g.box = a → g.ty = b.ty
  thr : ∀ g ∈ gs, g.box = a → (g.excl = true ∨ b.isSync = false) → ∀ t, b.send = some t → g.thr = t

structure Inv (s : St) : Prop where
  keys : (s.map.map Prod.fst).Nodup
  vals : (s.map.map Prod.snd).Nodup
  live : ∀ p ∈ s.map, ∃ b, s.heap p.2 = some b
  only : ∀ a b, s.heap a = some b → ∃ id, (id, a) ∈ s.map
  fresh : ∀ a, s.next ≤ a → s.heap a = none
  box : ∀ a b, s.heap a = some b → BoxOk s.main s.guards a b
  guards : ∀ g ∈ s.guards, ∃ b, s.heap g.box = some b
  waiting : ∀ p ∈ s.waiting, St.checksThread p.2.made = true → p.1 = s.main
  once : ∀ id, s.created.count id ≤ s.dropped.count id + if (look s.map id).isSome then 1 else 0

theorem set_same {α : Type} (f : Nat → α) (i : Nat) (x : α) : set f i x i = x := by simp [set]
theorem set_other {α : Type} (f : Nat → α) {i j : Nat} (x : α) (h : j ≠ i) : set f i x j = f j := by simp [set, h]

theorem nShared_append (gs : List Guard) (g : Guard) (a : Nat) :
    nShared (gs ++ [g]) a = nShared gs a + if g.box = a ∧ g.excl = false then 1 else 0 := by
  unfold nShared
  rw [List.countP_append, List.countP_singleton]
  congr 1
  by_cases h1 : g.box = a <;> cases h2 : g.excl <;> simp [h1]

theorem nExcl_append (gs : List Guard) (g : Guard) (a : Nat) :
    nExcl (gs ++ [g]) a = nExcl gs a + if g.box = a ∧ g.excl = true then 1 else 0 := by
  unfold nExcl
  rw [List.countP_append, List.countP_singleton]
  congr 1
  by_cases h1 : g.box = a <;> cases h2 : g.excl <;> simp [h1]

theorem init_heap (std : Bool) (main : Nat) :
    (St.init std main).heap = set (fun _ => none) 0 (some (Box.make .new ⟨.new, .entities⟩ main)) := rfl

theorem init_inv (std : Bool) (main : Nat) : Inv (St.init std main) := by
  refine ⟨by simp [St.init], by simp [St.init], ?_, ?_, ?_, ?_, ?_, ?_, ?_⟩
  · intro p hp
    simp only [St.init, List.mem_singleton] at hp
    subst hp
    rw [init_heap]
    exact ⟨_, set_same _ _ _⟩
  · intro a b h
    rw [init_heap] at h
    by_cases ha : a = 0
    · subst ha
      exact ⟨_, .head _⟩
    · rw [set_other _ _ ha] at h
      cases h
  · intro a ha
    rw [init_heap]
    refine set_other _ _ ?_
    have : 1 ≤ a := ha
    omega
  · intro a b h
    rw [init_heap] at h
    by_cases ha : a = 0
    · subst ha
      rw [set_same] at h
      cases h
      exact ⟨rfl, rfl, (fun h => by cases h), (fun h => by cases h), (fun t h => by cases h), (fun g h => by cases h),
        (fun g h => by cases h)⟩
    · rw [set_other _ _ ha] at h
      cases h
  · intro g h; cases h
  · intro p h; cases h
  · intro id; exact Nat.zero_le _

/-- What a successful borrow says and does. -/
theorem take_cases (b : Box) (excl : Bool) (me : Nat) :
    (∃ e, b.take excl me = .error e ∧ e = .wrongThread ∧ (excl = true ∨ b.isSync = false) ∧ ∃ t, b.send = some t ∧ t ≠ me)
    ∨ (((excl = true ∨ b.isSync = false) → ∀ t, b.send = some t → t = me) ∧
      ((excl = true ∧ (b.excl = true ∨ b.shared ≠ 0) ∧ b.take excl me = .error .unique)
      ∨ (excl = true ∧ b.excl = false ∧ b.shared = 0 ∧ b.take excl me = .ok { b with excl := true })
      ∨ (excl = false ∧ b.isSync = false ∧ b.send = none ∧ (b.excl = true ∨ b.shared ≠ 0) ∧ b.take excl me = .error .shared)
      ∨ (excl = false ∧ b.isSync = false ∧ b.send = none ∧ b.excl = false ∧ b.shared = 0 ∧ b.take excl me = .ok { b with shared := 1 })
      ∨ (excl = false ∧ ¬ (b.isSync = false ∧ b.send = none) ∧ b.excl = true ∧ b.take excl me = .error .shared)
      ∨ (excl = false ∧ ¬ (b.isSync = false ∧ b.send = none) ∧ b.excl = false
          ∧ b.take excl me = .ok { b with shared := b.shared + 1 }))) := by
  obtain ⟨ty, send, isSync, shared, ex⟩ := b
  unfold Box.take Box.borrow Box.borrowMut borrowEv borrowMutEv
  cases excl <;> cases send <;> cases isSync <;> cases ex <;> simp <;>
    (try by_cases hs : shared = 0) <;> (try simp [*]) <;>
    (try (rename_i t; by_cases ht : t = me <;> simp [*]))

theorem put_inv {s : St} (h : Inv s) {id : Id} (hid : look s.map id = none) {b : Box} (hb : b.shared = 0) (hx : b.excl = false)
    (hh : ∀ t, b.send = some t → t = s.main) : Inv (s.put id b) := by
  have hfree : s.heap s.next = none := h.fresh _ (Nat.le_refl _)
  have hno : ∀ g ∈ s.guards, g.box ≠ s.next := by
    intro g hg e
    obtain ⟨b', hb'⟩ := h.guards g hg
    rw [e, hfree] at hb'
    cases hb'
  refine ⟨?_, ?_, ?_, ?_, ?_, ?_, ?_, h.waiting, ?_⟩
  · show ((s.map ++ [(id, s.next)]).map Prod.fst).Nodup
    rw [List.map_append]
    refine List.nodup_append.mpr ⟨h.keys, by simp, ?_⟩
    intro x hx y hy e
    simp only [List.map_cons, List.map_nil, List.mem_singleton] at hy
    subst hy; subst e
    exact look_none.mp hid hx
  · show ((s.map ++ [(id, s.next)]).map Prod.snd).Nodup
    rw [List.map_append]
    refine List.nodup_append.mpr ⟨h.vals, by simp, ?_⟩
    intro x hx y hy e
    simp only [List.map_cons, List.map_nil, List.mem_singleton] at hy
    subst hy; subst e
    obtain ⟨p, hp, he⟩ := List.mem_map.mp hx
    obtain ⟨b', hb'⟩ := h.live p hp
    rw [he, hfree] at hb'
    cases hb'
  · intro p hp
    rcases List.mem_append.mp hp with hp | hp
    · obtain ⟨b', hb'⟩ := h.live p hp
      refine ⟨b', ?_⟩
      show set s.heap s.next (some b) p.2 = _
      rw [set_other _ _ ?_]
      · exact hb'
      · intro e
        rw [e, hfree] at hb'
        cases hb'
    · simp only [List.mem_singleton] at hp
      subst hp
      exact ⟨b, set_same _ _ _⟩
  · intro a b' hb'
    by_cases ha : a = s.next
    · subst ha
      exact ⟨id, List.mem_append.mpr (.inr (.head _))⟩
    · rw [show (s.put id b).heap a = s.heap a from set_other _ _ ha] at hb'
      obtain ⟨i, hi⟩ := h.only a b' hb'
      exact ⟨i, List.mem_append.mpr (.inl hi)⟩
  · intro a ha
    have ha' : s.next + 1 ≤ a := ha
    rw [show (s.put id b).heap a = s.heap a from set_other _ _ (by omega)]
    exact h.fresh a (by omega)
  · intro a b' hb'
    by_cases ha : a = s.next
    · subst ha
      rw [show (s.put id b).heap s.next = some b from set_same _ _ _] at hb'
      cases hb'
      refine ⟨?_, ?_, (fun h => by rw [hx] at h; cases h), (fun _ _ => by omega), hh, (fun g hg e => absurd e (hno g hg)),
        (fun g hg e => absurd e (hno g hg))⟩
      · rw [hb]
        show List.countP _ s.guards = 0
        rw [List.countP_eq_zero]
        intro g hg
        simp [hno g hg]
      · rw [hx]
        show List.countP _ s.guards = 0
        rw [List.countP_eq_zero]
        intro g hg
        simp [hno g hg]
    · rw [show (s.put id b).heap a = s.heap a from set_other _ _ ha] at hb'
      exact h.box a b' hb'
  · intro g hg
    obtain ⟨b', hb'⟩ := h.guards g hg
    exact ⟨b', by rw [show (s.put id b).heap g.box = s.heap g.box from set_other _ _ (hno g hg)]; exact hb'⟩
  · intro i
    have := h.once i
    show s.created.count i ≤ s.dropped.count i + if (look (s.map ++ [(id, s.next)]) i).isSome then 1 else 0
    rw [look_append hid]
    by_cases hi : id = i
    · subst hi
      rw [hid] at this
      simp at this ⊢
      omega
    · simp only [hi, if_false]
      exact this

theorem take_inv {s : St} (h : Inv s) {id : Id} {a : Nat} (hid : look s.map id = some a) (hg : ∀ g ∈ s.guards, g.box ≠ a) :
    Inv (s.take id a) := by
  have hmem := look_mem hid
  have hsub : ∀ p, p ∈ (s.take id a).map ↔ p ∈ s.map ∧ p.1 ≠ id := by
    intro p
    show p ∈ s.map.filter _ ↔ _
    rw [List.mem_filter]
    simp
  have hval : ∀ p ∈ s.map, p.1 ≠ id → p.2 ≠ a := by
    intro p hp hne e
    have : ∀ (m : List (Id × Nat)), (m.map Prod.snd).Nodup → ∀ p ∈ m, ∀ q ∈ m, p.2 = q.2 → p = q := by
      intro m
      induction m with
      | nil => intro _ p hp; cases hp
      | cons x rest ih =>
        intro hn p hp q hq he
        rw [List.map_cons, List.nodup_cons] at hn
        rcases List.mem_cons.mp hp with rfl | hp
        · rcases List.mem_cons.mp hq with rfl | hq
          · rfl
          · exact absurd (List.mem_map.mpr ⟨q, hq, he.symm⟩) hn.1
        · rcases List.mem_cons.mp hq with e | hq
          · rw [e] at he
            exact absurd (List.mem_map.mpr ⟨p, hp, he⟩) hn.1
          · exact ih hn.2 p hp q hq he
    have := this s.map h.vals p hp (id, a) hmem e
    rw [this] at hne
    exact hne rfl
  refine ⟨?_, ?_, ?_, ?_, ?_, ?_, ?_, h.waiting, ?_⟩
  · exact (List.filter_sublist.map _).nodup h.keys
  · exact (List.filter_sublist.map _).nodup h.vals
  · intro p hp
    obtain ⟨hp, hne⟩ := (hsub p).mp hp
    obtain ⟨b, hb⟩ := h.live p hp
    exact ⟨b, by rw [show (s.take id a).heap p.2 = s.heap p.2 from set_other _ _ (hval p hp hne)]; exact hb⟩
  · intro x b hb
    by_cases hx : x = a
    · subst hx
      rw [show (s.take id x).heap x = none from set_same _ _ _] at hb
      cases hb
    · rw [show (s.take id a).heap x = s.heap x from set_other _ _ hx] at hb
      obtain ⟨i, hi⟩ := h.only x b hb
      refine ⟨i, (hsub _).mpr ⟨hi, ?_⟩⟩
      intro e
      have := look_of_mem h.keys hi
      rw [show i = id from e, hid] at this
      cases this
      exact hx rfl
  · intro x hx
    by_cases hxa : x = a
    · subst hxa; exact set_same _ _ _
    · rw [show (s.take id a).heap x = s.heap x from set_other _ _ hxa]; exact h.fresh x hx
  · intro x b hb
    by_cases hx : x = a
    · subst hx
      rw [show (s.take id x).heap x = none from set_same _ _ _] at hb
      cases hb
    · rw [show (s.take id a).heap x = s.heap x from set_other _ _ hx] at hb
      exact h.box x b hb
  · intro g hgm
    obtain ⟨b, hb⟩ := h.guards g hgm
    exact ⟨b, by rw [show (s.take id a).heap g.box = s.heap g.box from set_other _ _ (hg g hgm)]; exact hb⟩
  · intro i
    have := h.once i
    show s.created.count i ≤ (s.dropped ++ [id]).count i + if (look (s.map.filter _) i).isSome then 1 else 0
    rw [look_filter, List.count_append, List.count_singleton]
    by_cases hi : id = i
    · subst hi
      rw [hid] at this
      simp at this ⊢
      omega
    · have : ¬ (i == id) = true := by simpa using fun e => hi e.symm
      simp only [hi, if_false]
      have h2 := h.once i
      split <;> omega

/-- A guard more, with what the borrow made of the box. -/
theorem guard_inv {s : St} (h : Inv s) {a : Nat} {b b' : Box} {excl : Bool} {me : Nat} (hb : s.heap a = some b)
    (ht : b.take excl me = .ok b') :
    Inv { s with heap := set s.heap a (some b'), guards := s.guards ++ [{ box := a, ty := b.ty, excl, thr := me }] } := by
  have hk := h.box a b hb
  have key : b'.ty = b.ty ∧ b'.send = b.send ∧ b'.isSync = b.isSync ∧
      BoxOk s.main (s.guards ++ [{ box := a, ty := b.ty, excl, thr := me }]) a b' := by
    have types : ∀ g ∈ s.guards ++ [{ box := a, ty := b.ty, excl, thr := me }], g.box = a → g.ty = b.ty := by
      intro g hg e
      rcases List.mem_append.mp hg with hg | hg
      · exact hk.types g hg e
      · simp only [List.mem_singleton] at hg; subst hg; rfl
    rcases take_cases b excl me with ⟨e, he, _⟩ | ⟨hthr, hc⟩
    · rw [he] at ht; cases ht
    · have thr : ∀ g ∈ s.guards ++ [{ box := a, ty := b.ty, excl, thr := me }], g.box = a →
          (g.excl = true ∨ b.isSync = false) → ∀ t, b.send = some t → g.thr = t := by
        intro g hg e hor t hs
        rcases List.mem_append.mp hg with hg | hg
        · exact hk.thr g hg e hor t hs
        · simp only [List.mem_singleton] at hg; subst hg; exact (hthr hor t hs).symm
      rcases hc with ⟨_, _, he⟩ | ⟨h1, h2, h3, he⟩ | ⟨_, _, _, _, he⟩ | ⟨h1, h2, h3, h4, h5, he⟩ | ⟨_, _, _, he⟩ | ⟨h1, h2, h3, he⟩
      · rw [he] at ht; cases ht
      · rw [he] at ht; cases ht
        subst h1
        refine ⟨rfl, rfl, rfl, ⟨?_, ?_, fun _ => h3, hk.one, hk.home, types, thr⟩⟩
        · rw [nShared_append, hk.shared]; simp
        · rw [nExcl_append, hk.excl, h2]; simp
      · rw [he] at ht; cases ht
      · rw [he] at ht; cases ht
        subst h1
        refine ⟨rfl, rfl, rfl, ⟨?_, ?_, (fun h => absurd (h4 ▸ h) (by simp)), (fun _ _ => Nat.le_refl _), hk.home, types, thr⟩⟩
        · rw [nShared_append, hk.shared, h5]; simp
        · rw [nExcl_append, hk.excl]; simp
      · rw [he] at ht; cases ht
      · rw [he] at ht; cases ht
        subst h1
        refine ⟨rfl, rfl, rfl, ⟨?_, ?_, (fun h => absurd (h3 ▸ h) (by simp)), (fun h4 h5 => absurd ⟨h4, h5⟩ h2), hk.home, types, thr⟩⟩
        · rw [nShared_append, hk.shared]; simp
        · rw [nExcl_append, hk.excl]; simp
  obtain ⟨hty, hsend, hsync, hnew⟩ := key
  refine ⟨h.keys, h.vals, ?_, ?_, ?_, ?_, ?_, h.waiting, h.once⟩
  · intro p hp
    by_cases e : p.2 = a
    · exact ⟨b', by rw [e]; exact set_same _ _ _⟩
    · obtain ⟨x, hx⟩ := h.live p hp
      exact ⟨x, (set_other _ _ e).trans hx⟩
  · intro x y hy
    by_cases e : x = a
    · subst e; exact h.only x b hb
    · replace hy : set s.heap a (some b') x = some y := hy
      rw [set_other _ _ e] at hy
      exact h.only x y hy
  · intro x hx
    have hx' := h.fresh x hx
    by_cases e : x = a
    · subst e; rw [hx'] at hb; cases hb
    · exact (set_other _ _ e).trans hx'
  · intro x y hy
    by_cases e : x = a
    · subst e
      replace hy : set s.heap x (some b') x = some y := hy
      rw [set_same] at hy
      cases hy
      exact hnew
    · replace hy : set s.heap a (some b') x = some y := hy
      rw [set_other _ _ e] at hy
      have hk := h.box x y hy
      have e' : ¬ a = x := fun h => e h.symm
      refine ⟨?_, ?_, hk.alone, hk.one, hk.home, ?_, ?_⟩
      · rw [nShared_append, hk.shared]; simp [e']
      · rw [nExcl_append, hk.excl]; simp [e']
      · intro g hg he
        rcases List.mem_append.mp hg with hg | hg
        · exact hk.types g hg he
        · simp only [List.mem_singleton] at hg; subst hg; exact absurd he e'
      · intro g hg he
        rcases List.mem_append.mp hg with hg | hg
        · exact hk.thr g hg he
        · simp only [List.mem_singleton] at hg; subst hg; exact absurd he e'
  · intro g hg
    by_cases e : g.box = a
    · exact ⟨b', by rw [e]; exact set_same _ _ _⟩
    · rcases List.mem_append.mp hg with hg | hg
      · obtain ⟨x, hx⟩ := h.guards g hg
        exact ⟨x, (set_other _ _ e).trans hx⟩
      · simp only [List.mem_singleton] at hg; subst hg; exact absurd rfl e

theorem grab_cases (s : St) (me a : Nat) (want : Option Ty) (excl : Bool) (named : Id) {b : Box} (hb : s.heap a = some b) :
    (∃ e, b.take excl me = .error e ∧ s.grab me a want excl named = (s, .refused named e))
    ∨ (∃ b', b.take excl me = .ok b' ∧
      (((∀ t, want = some t → b.ty = t) ∧ s.grab me a want excl named =
          ({ s with heap := set s.heap a (some b'), guards := s.guards ++ [{ box := a, ty := b.ty, excl, thr := me }] },
            .guard { box := a, ty := b.ty, excl, thr := me }))
      ∨ ((∃ t, want = some t ∧ b.ty ≠ t) ∧ s.grab me a want excl named = (s, .panic)))) := by
  unfold St.grab
  rw [hb]
  dsimp only
  cases ht : b.take excl me with
  | error e => exact .inl ⟨e, rfl, rfl⟩
  | ok b' =>
    refine .inr ⟨b', rfl, ?_⟩
    dsimp only
    cases want with
    | none => exact .inl ⟨(fun t h => by cases h), rfl⟩
    | some t =>
      by_cases he : b.ty = t
      · refine .inl ⟨(fun t' h => by cases h; exact he), ?_⟩
        simp only [he, decide_true, if_true]
      · refine .inr ⟨⟨t, rfl, he⟩, ?_⟩
        simp only [he, decide_false]
        rfl

theorem grab_inv {s : St} (h : Inv s) (me : Nat) {a : Nat} (want : Option Ty) (excl : Bool) (named : Id) {b : Box}
    (hb : s.heap a = some b) : Inv (s.grab me a want excl named).1 := by
  rcases grab_cases s me a want excl named hb with ⟨e, _, he⟩ | ⟨b', ht, ⟨_, he⟩ | ⟨_, he⟩⟩
  · rw [he]; exact h
  · rw [he]; exact guard_inv h hb ht
  · rw [he]; exact h

theorem Inv.boxAt {s : St} (h : Inv s) {id : Id} {a : Nat} (hl : look s.map id = some a) : ∃ b, s.heap a = some b :=
  h.live _ (look_mem hl)

theorem nothing_on {s : St} (h : Inv s) {a : Nat} {b : Box} (hb : s.heap a = some b) (h1 : b.excl = false) (h2 : b.shared = 0) :
    ∀ g ∈ s.guards, g.box ≠ a := by
  intro g hg e
  have hk := h.box a b hb
  have c1 := hk.shared
  have c2 := hk.excl
  rw [h2] at c1
  rw [h1] at c2
  simp only [Bool.false_eq_true, if_false] at c2
  cases hx : g.excl with
  | true =>
    have := List.countP_eq_zero.mp c2 g hg
    simp [e, hx] at this
  | false =>
    have := List.countP_eq_zero.mp c1 g hg
    simp [e, hx] at this

theorem countP_erase {α : Type} (p : α → Bool) : ∀ (l : List α) (i : Nat) (g : α), l[i]? = some g →
    l.countP p = (l.eraseIdx i).countP p + if p g then 1 else 0
  | [], _, _, h => by cases h
  | x :: rest, 0, g, h => by
    cases h
    rw [List.countP_cons]; rfl
  | x :: rest, i + 1, g, h => by
    have := countP_erase p rest i g h
    rw [List.eraseIdx_cons_succ, List.countP_cons, List.countP_cons, this]
    omega

theorem unguard_inv {s : St} (h : Inv s) {i : Nat} {g : Guard} (hi : s.guards[i]? = some g) : Inv (s.unguard i g) := by
  have hg : g ∈ s.guards := List.mem_of_getElem? hi
  obtain ⟨b, hb⟩ := h.guards g hg
  have hk := h.box _ b hb
  have hsub : ∀ x ∈ s.guards.eraseIdx i, x ∈ s.guards := fun x hx => List.mem_of_mem_eraseIdx hx
  have cS : ∀ a, nShared s.guards a = nShared (s.guards.eraseIdx i) a + if g.box = a ∧ g.excl = false then 1 else 0 := by
    intro a
    unfold nShared
    rw [countP_erase _ _ _ _ hi]
    congr 1
    by_cases h1 : g.box = a <;> cases h2 : g.excl <;> simp [h1]
  have cX : ∀ a, nExcl s.guards a = nExcl (s.guards.eraseIdx i) a + if g.box = a ∧ g.excl = true then 1 else 0 := by
    intro a
    unfold nExcl
    rw [countP_erase _ _ _ _ hi]
    congr 1
    by_cases h1 : g.box = a <;> cases h2 : g.excl <;> simp [h1]
  have hheap : (s.unguard i g).heap = set s.heap g.box (some (if g.excl then { b with excl := false } else
      { b with shared := b.shared - 1 })) := by
    show (match s.heap g.box with | none => s.heap | some b => set s.heap g.box _) = _
    rw [hb]
  refine ⟨h.keys, h.vals, ?_, ?_, ?_, ?_, ?_, h.waiting, h.once⟩
  · intro p hp
    rw [hheap]
    by_cases e : p.2 = g.box
    · rw [e]; exact ⟨_, set_same _ _ _⟩
    · obtain ⟨x, hx⟩ := h.live p hp
      exact ⟨x, (set_other _ _ e).trans hx⟩
  · intro x y hy
    rw [hheap] at hy
    by_cases e : x = g.box
    · subst e; exact h.only _ b hb
    · rw [set_other _ _ e] at hy
      exact h.only x y hy
  · intro x hx
    have hx' := h.fresh x hx
    rw [hheap]
    by_cases e : x = g.box
    · subst e; rw [hx'] at hb; cases hb
    · exact (set_other _ _ e).trans hx'
  · intro x y hy
    rw [hheap] at hy
    show BoxOk s.main (s.guards.eraseIdx i) x y
    by_cases e : x = g.box
    · subst e
      rw [set_same] at hy
      have s1 := hk.shared
      have s2 := hk.excl
      rw [cS] at s1
      rw [cX] at s2
      cases hx : g.excl with
      | true =>
        rw [hx] at hy
        simp only [if_true] at hy
        cases hy
        rw [hx] at s1 s2
        simp at s1 s2
        refine ⟨s1, ?_, (fun h => by cases h), hk.one, hk.home, fun x hx => hk.types x (hsub x hx), fun x hx => hk.thr x (hsub x hx)⟩
        show nExcl _ _ = if false = true then 1 else 0
        split at s2 <;> simp_all
      | false =>
        rw [hx] at hy
        simp only [Bool.false_eq_true, if_false] at hy
        cases hy
        rw [hx] at s1 s2
        simp at s1 s2
        refine ⟨by show _ = b.shared - 1; omega, s2, ?_, ?_, hk.home, fun x hx => hk.types x (hsub x hx), fun x hx => hk.thr x (hsub x hx)⟩
        · intro hx
          have := hk.alone hx
          show b.shared - 1 = 0
          omega
        · intro h1 h2
          have := hk.one h1 h2
          show b.shared - 1 ≤ 1
          omega
    · rw [set_other _ _ e] at hy
      have hk := h.box x y hy
      have e' : ¬ g.box = x := fun h => e h.symm
      refine ⟨?_, ?_, hk.alone, hk.one, hk.home, fun z hz => hk.types z (hsub z hz), fun z hz => hk.thr z (hsub z hz)⟩
      · have := cS x; simp [e'] at this; rw [← this]; exact hk.shared
      · have := cX x; simp [e'] at this; rw [← this]; exact hk.excl
  · intro z hz
    rw [hheap]
    by_cases e : z.box = g.box
    · rw [e]; exact ⟨_, set_same _ _ _⟩
    · obtain ⟨x, hx⟩ := h.guards z (hsub z hz)
      exact ⟨x, (set_other _ _ e).trans hx⟩

theorem make_home {s : St} {m : Made} {ty : Ty} {me : Nat} (h : St.checksThread m = true → me = s.main) :
    ∀ t, (Box.make m ty me).send = some t → t = s.main := by
  intro t ht
  cases m with
  | new => cases ht
  | nonSync => cases ht
  | nonSend => cases ht; exact h rfl
  | nonSendSync => cases ht; exact h rfl

theorem poison_inv {s : St} (h : Inv s) : Inv s.poison :=
  ⟨h.keys, h.vals, h.live, h.only, h.fresh, h.box, h.guards, h.waiting, h.once⟩

theorem grab_keeps (s : St) (me a : Nat) (want : Option Ty) (excl : Bool) (named : Id) :
    (s.grab me a want excl named).1.map = s.map ∧ (s.grab me a want excl named).1.main = s.main
    ∧ (s.grab me a want excl named).1.waiting = s.waiting ∧ (s.grab me a want excl named).1.created = s.created
    ∧ (s.grab me a want excl named).1.dropped = s.dropped ∧ (s.grab me a want excl named).1.poisoned = s.poisoned
    ∧ (s.grab me a want excl named).1.std = s.std := by
  unfold St.grab
  split
  · exact ⟨rfl, rfl, rfl, rfl, rfl, rfl, rfl⟩
  · split
    · exact ⟨rfl, rfl, rfl, rfl, rfl, rfl, rfl⟩
    · split <;> (split <;> exact ⟨rfl, rfl, rfl, rfl, rfl, rfl, rfl⟩)

theorem listLoop_inv (me : Nat) (excl : Bool) : ∀ (m : List (Id × Nat)) (s : St) (gs : List Guard), Inv s → (∀ p ∈ m, p ∈ s.map) →
    Inv (St.listLoop me excl m s gs).1
  | [], _, _, h, _ => h
  | (id, a) :: rest, s, gs, h, hm => by
    unfold St.listLoop
    obtain ⟨b, hb⟩ := h.live _ (hm _ (.head _))
    have hi := grab_inv h me none excl id hb
    have hmap := (grab_keeps s me a none excl id).1
    have hr : ∀ p ∈ rest, p ∈ (s.grab me a none excl id).1.map := fun p hp => by rw [hmap]; exact hm p (.tail _ hp)
    split
    · next s' g he => rw [he] at hi hr; exact listLoop_inv me excl rest s' _ hi hr
    · next s' o _ he => rw [he] at hi hr; exact listLoop_inv me excl rest s' _ hi hr

theorem create_inv {s : St} (h : Inv s) {r : Req} {me : Nat} (hl : look s.map r.id = none)
    (hm : St.checksThread r.made = true → me = s.main) :
    Inv { s.put r.id (Box.make r.made r.ty me) with created := s.created ++ [r.id] } := by
  have hp := put_inv h hl (b := Box.make r.made r.ty me) rfl rfl (make_home hm)
  refine ⟨hp.keys, hp.vals, hp.live, hp.only, hp.fresh, hp.box, hp.guards, hp.waiting, ?_⟩
  intro i
  have h1 := hp.once i
  have h0 := h.once i
  show (s.created ++ [r.id]).count i ≤ s.dropped.count i + if (look (s.map ++ [(r.id, s.next)]) i).isSome then 1 else 0
  rw [look_append hl, List.count_append, List.count_singleton]
  by_cases hi : r.id = i
  · subst hi
    rw [hl] at h0
    simp at h0 ⊢
    omega
  · have h3 : (r.id == i) = false := by simpa using hi
    simp only [hi, if_false, h3, Bool.false_eq_true, Nat.add_zero]
    exact h0

theorem insert_inv {s : St} (h : Inv s) (me : Nat) (r : Req) (ok : Bool) (hm : St.checksThread r.made = true → me = s.main) :
    Inv (s.insert me r ok).1 := by
  unfold St.insert
  split
  · next a hl =>
    obtain ⟨b, hb⟩ := h.boxAt hl
    have hi := grab_inv h me (some r.ty) r.excl (.of r.ty) hb
    split
    · next s' he => rw [he] at hi; exact poison_inv hi
    · exact hi
  · next hl =>
    split
    · exact grab_inv (create_inv h hl hm) me _ _ _ (b := Box.make r.made r.ty me) (set_same _ _ _)
    · exact poison_inv h

theorem addUnique_inv {s : St} (h : Inv s) (me t : Nat) (quiet : Bool)
    (hp : ∀ a, look s.map (uniqueId t) = some a → ∀ g ∈ s.guards, g.box ≠ a) : Inv (s.addUnique me t quiet).1 := by
  unfold St.addUnique
  dsimp only
  split
  · next hl => exact put_inv h hl rfl rfl (fun t h => by cases h)
  · next a hl =>
    have ht := take_inv h hl (hp a hl)
    have hl' : look (s.take (uniqueId t) a).map (uniqueId t) = none := by
      show look (s.map.filter _) _ = none
      rw [look_filter]; simp
    have hq := put_inv ht hl' (b := Box.make .new ⟨.new, .unique t⟩ me) rfl rfl (fun t h => by cases h)
    split
    · exact hq
    · exact poison_inv hq

theorem addUniqueLocal_inv {s : St} (h : Inv s) (me : Nat) (m : Made) (t : Nat) : Inv (s.addUniqueLocal me m t).1 := by
  unfold St.addUniqueLocal
  split
  · exact h
  · next hc =>
    split
    · next hl =>
      refine put_inv h hl rfl rfl (make_home ?_)
      intro hm
      rw [hm] at hc
      simpa using hc
    · exact h

theorem removeUnique_inv {s : St} (h : Inv s) (me t : Nat) : Inv (s.removeUnique me t).1 := by
  unfold St.removeUnique
  split
  · exact h
  · next a hl =>
    split
    · exact h
    · next b hb =>
      split
      · exact h
      · next b' hm =>
        refine take_inv h hl (nothing_on h hb ?_ ?_)
        all_goals
          unfold Box.borrowMut at hm
          split at hm
          · cases hm
          · split at hm
            · cases hm
            · next hc =>
              simp only [Bool.or_eq_true, not_or, bne_iff_ne, ne_eq, Bool.not_eq_true, Decidable.not_not] at hc
              first
              | exact hc.1
              | exact hc.2

theorem find_inv {s : St} (h : Inv s) (me : Nat) (id : Id) (want : Option Ty) (excl : Bool) : Inv (s.find me id want excl).1 := by
  unfold St.find
  split
  · next a hl =>
    obtain ⟨b, hb⟩ := h.boxAt hl
    exact grab_inv h me want excl id hb
  · exact h

theorem orInsert_inv {s : St} (h : Inv s) (me : Nat) (r : Req) : Inv (s.orInsert me r).1 := by
  unfold St.orInsert
  split
  · next a hl =>
    obtain ⟨b, hb⟩ := h.boxAt hl
    exact grab_inv h me _ _ _ hb
  · split
    · exact h
    · next hc =>
      refine ⟨h.keys, h.vals, h.live, h.only, h.fresh, h.box, h.guards, ?_, h.once⟩
      intro p hp hm
      rcases List.mem_append.mp hp with hp | hp
      · exact h.waiting p hp hm
      · simp only [List.mem_singleton] at hp
        subst hp
        rw [hm] at hc
        simpa using hc

theorem step_inv {s s' : St} {me : Nat} {ev : Ev} {o : Out} (h : Inv s) (hp : Polite s ev) (hs : s.step me ev = some (s', o)) :
    Inv s' := by
  cases ev with
  | drop i =>
    simp only [St.step] at hs
    split at hs
    · next g hg => cases hs; exact unguard_inv h hg
    · cases hs
  | insert i ok =>
    simp only [St.step] at hs
    split at hs
    · cases hs
    · next thr r hw =>
      split at hs
      · next he =>
        subst he
        have h' : Inv { s with waiting := s.waiting.eraseIdx i } :=
          ⟨h.keys, h.vals, h.live, h.only, h.fresh, h.box, h.guards, fun p hp => h.waiting p (List.mem_of_mem_eraseIdx hp), h.once⟩
        split at hs
        · cases hs; exact h'
        · have := insert_inv h' thr r ok (h.waiting _ (List.mem_of_getElem? hw))
          rw [Option.some.injEq] at hs; rw [hs] at this; exact this
      · cases hs
  | find id want excl =>
    simp only [St.step] at hs
    split at hs
    · cases hs; exact h
    · have := find_inv h me id want excl
      rw [Option.some.injEq] at hs; rw [hs] at this; exact this
  | orInsert r =>
    simp only [St.step] at hs
    split at hs
    · cases hs; exact h
    · have := orInsert_inv h me r
      rw [Option.some.injEq] at hs; rw [hs] at this; exact this
  | addUnique t quiet =>
    simp only [St.step] at hs
    split at hs
    · cases hs; exact h
    · have := addUnique_inv h me t quiet hp
      rw [Option.some.injEq] at hs; rw [hs] at this; exact this
  | addUniqueLocal m t =>
    simp only [St.step] at hs
    split at hs
    · cases hs; exact h
    · have := addUniqueLocal_inv h me m t
      rw [Option.some.injEq] at hs; rw [hs] at this; exact this
  | removeUnique t =>
    simp only [St.step] at hs
    split at hs
    · cases hs; exact h
    · have := removeUnique_inv h me t
      rw [Option.some.injEq] at hs; rw [hs] at this; exact this
  | list excl =>
    simp only [St.step] at hs
    split at hs
    · cases hs; exact h
    · have := listLoop_inv me excl s.map s [] h (fun p hp => hp)
      cases hs; exact this

theorem reach_inv {std : Bool} {main : Nat} {h : List (Nat × Ev)} {s : St} (hr : Reach std main h s) : Inv s := by
  induction hr with
  | init => exact init_inv _ _
  | step _ hp hs ih => exact step_inv ih hp hs

end Verif.StorageMap
