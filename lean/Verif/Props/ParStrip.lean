import Verif.Model.ParStrip
import Verif.Props.WorldUnwind

/-!
# `par_strip` under every schedule (C90)

`Steps p now n t u`: from the state `t` the tasks of `par_strip` made `n` steps, interleaved in some way, and
are now in the state `u`; `p` says which callbacks and destructors panic. The theorems are about every `p` and
every interleaving.
-/
namespace Verif
open StoSpec (Valid Sto lookup)
open WSpec (PReach Reach Same demoFlags demo pdemo)
open World SparseSet
variable {V : Type} {fl : Flags}

namespace World

theorem stoDeleteU_returned {p : Bool × Bool} {e : EId} {now : Nat} {s s' : SparseSet V}
    (h : stoDeleteU p e now s = .ok (.returned (), s')) : stoDelete e now s = .ok s' := by
  unfold stoDeleteU at h
  simp only [bind, Except.bind] at h
  cases hd : s.dynDeleteU e now p.1 p.2 with
  | error f => rw [hd] at h; cases h
  | ok q =>
    obtain ⟨o, s1⟩ := q
    rw [hd] at h
    cases o with
    | unwound u => cases h
    | returned b =>
      cases h
      obtain ⟨r, s1, _, k⟩ := dynDeleteU_cases hd
      rcases k with ⟨_, k⟩ | ⟨k, _⟩ | ⟨k, _⟩
      · unfold stoDelete; simp only [bind, Except.bind, k]
      · cases k
      · cases k

theorem stoDeleteU_calm {e : EId} {now : Nat} {s s' : SparseSet V} {u}
    (h : stoDeleteU (false, false) e now s = .ok (.unwound u, s')) : False := by
  unfold stoDeleteU at h
  simp only [bind, Except.bind] at h
  cases hd : s.dynDeleteU e now false false with
  | error f => rw [hd] at h; cases h
  | ok q =>
    obtain ⟨o, s1⟩ := q
    rw [hd] at h
    cases o with
    | returned b => cases h
    | unwound u =>
      obtain ⟨r, s1, _, k⟩ := dynDeleteU_cases hd
      rcases k with ⟨k, _⟩ | ⟨_, _, _, k, _⟩ | ⟨_, k, _⟩ <;> cases k

/-- A step of a task, as a call through a view. -/
theorem stoDeleteU_reach {w : World V} {I : List EId} (hr : PReach fl w I) {p : Bool × Bool} {e : EId}
    {now k : Nat} {s s' : SparseSet V} {out} (he : Valid e) (hk : lookupK w.stos k = some s)
    (h : stoDeleteU p e now s = .ok (out, s')) : PReach fl (w.put k s') I := by
  obtain ⟨A, Q, hok⟩ := preach_ok hr
  have h1 := hok.sto k
  rw [hk] at h1
  generalize A k = ao at h1
  cases h1 with
  | some ha =>
    have hg := ha.get he.1
    unfold stoDeleteU at h
    simp only [bind, Except.bind] at h
    cases hd : s.dynDeleteU e now p.1 p.2 with
    | error f => rw [hd] at h; cases h
    | ok q =>
      obtain ⟨o, s1⟩ := q
      rw [hd] at h
      cases o with
      | unwound u =>
        cases h
        exact .view hr hk (.delete he hg hd) trivial
      | returned b =>
        cases h
        obtain ⟨r, s1, _, k'⟩ := dynDeleteU_cases hd
        rcases k' with ⟨_, k'⟩ | ⟨k', _⟩ | ⟨k', _⟩
        · exact .view hr hk (.done (.delete he hg k')) trivial
        · cases k'
        · cases k'

/-- One deletion in one storage. -/
theorem Sound.deleteIn {w : World V} {A : Nat → Option (Sto V)} {Q : List Nat} {I : List EId}
    (h : Sound w A Q I) {e : EId} (he : Valid e) (now k : Nat) (p : Bool × Bool) {s : SparseSet V}
    (hk : lookupK w.stos k = some s) :
    ∃ out s' A', stoDeleteU p e now s = .ok (out, s') ∧ Sound (w.put k s') A' Q I ∧
      ∀ j x, look A' j x = if j = k ∧ Hit e x then none else look A j x := by
  have h1 := h.sto k
  rw [hk] at h1
  cases hA : A k with
  | none => rw [hA] at h1; cases h1
  | some a =>
    rw [hA] at h1
    cases h1 with
    | some ha =>
      obtain ⟨out, s', b, L', g1, g2, g3, g4⟩ := stoDeleteU_tab ha he now p
      refine ⟨out, s', setTab A k b, g1, ⟨h.ent, setK_nodup h.nodup _ _, ?_, ?_, h.alive⟩, ?_⟩
      · intro j
        show StoF (lookupK (setK w.stos k s') j) _
        rw [lookupK_setK]
        unfold setTab
        by_cases hj : j = k
        · rw [if_pos hj, if_pos hj]; exact .some g2
        · rw [if_neg hj, if_neg hj]; exact h.sto j
      · intro j c hc
        unfold setTab at hc
        split at hc
        · cases hc; exact g3.given (h.given k a hA)
        · exact h.given j c hc
      · intro j x
        by_cases hj : j = k
        · subst hj
          unfold look setTab
          rw [if_pos rfl, hA]
          show lookup b.rows x = _
          rw [g4]
          by_cases hh : Hit e x
          · rw [if_pos hh, if_pos ⟨rfl, hh⟩]
          · rw [if_neg hh, if_neg (fun h => hh h.2)]; rfl
        · rw [if_neg (fun h => hj h.1)]
          unfold look setTab
          rw [if_neg hj]

/-- What holds while `par_strip` runs, whatever the world. -/
structure SBase (w : World V) (es : List EId) (t : Stripping V) : Prop where
  keys : t.stos.map Prod.fst = w.stos.map Prod.fst
  len : ∀ k, t.pos k ≤ es.length
  todo : ∀ k, t.todo k = es.drop (t.pos k) ∨ (t.todo k = [] ∧ t.unwinding = true)
  same : t.unwinding = false → ∀ k s0 s, lookupK w.stos k = some s0 → lookupK t.stos k = some s →
    stoDeleteAll w.counter es s0 = stoDeleteAll w.counter (t.todo k) s

/-- What holds while `par_strip` runs, in a world whose storages are sound. -/
structure SInv (fl : Flags) (w : World V) (A : Nat → Option (Sto V)) (Q : List Nat) (I es : List EId)
    (t : Stripping V) : Prop where
  reach : PReach fl (t.world w) I
  sound : ∃ A', Sound (t.world w) A' Q I ∧
    ∀ k x, look A' k x = if ∃ e ∈ es.take (t.pos k), Hit e x then none else look A k x

theorem setK_keys_eq {α : Type} {l : List (Nat × α)} {k : Nat} {a b : α} (h : lookupK l k = some b) :
    (setK l k a).map Prod.fst = l.map Prod.fst := by
  induction l with
  | nil => cases h
  | cons x l ih =>
    obtain ⟨i, c⟩ := x
    unfold setK
    by_cases hk : k = i
    · rw [if_pos hk]; rfl
    · rw [if_neg hk]
      unfold lookupK at h
      rw [if_neg hk] at h
      simp [ih h]

theorem SBase.start (w : World V) (es : List EId) : SBase w es (Stripping.start w es) := by
  refine ⟨rfl, fun _ => Nat.zero_le _, fun _ => .inl rfl, ?_⟩
  intro _ k s0 s h1 h2
  have : s0 = s := by
    have h3 : lookupK w.stos k = some s := h2
    rw [h1] at h3; cases h3; rfl
  rw [this]; rfl

theorem SInv.start {w : World V} {A Q} {I es : List EId} (hr : PReach fl w I) (h : Sound w A Q I) :
    SInv fl w A Q I es (Stripping.start w es) := by
  refine ⟨PReach.clock (w := w) (w.counter + 1) hr, ⟨A, h.tick, ?_⟩⟩
  intro k x
  rw [if_neg]
  rintro ⟨e, he, _⟩
  simp [Stripping.start] at he

theorem drop_next {es rest : List EId} {e : EId} {i : Nat} (h : es.drop i = e :: rest) :
    i < es.length ∧ es.drop (i + 1) = rest ∧ es.take (i + 1) = es.take i ++ [e] := by
  have h1 : i < es.length := by
    apply Classical.byContradiction
    intro hn
    rw [List.drop_eq_nil_of_le (by omega)] at h
    cases h
  rw [List.drop_eq_getElem_cons h1] at h
  cases h
  exact ⟨h1, rfl, by rw [List.take_succ_eq_append_getElem h1]⟩

theorem SBase.now {w : World V} {es : List EId} {t : Stripping V} (h : SBase w es t) {k : Nat} {e : EId}
    {rest : List EId} (ht : t.todo k = e :: rest) : es.drop (t.pos k) = e :: rest := by
  rcases h.todo k with h1 | ⟨h1, _⟩
  · rw [← h1, ht]
  · rw [ht] at h1; cases h1

theorem SBase.step {w : World V} {es : List EId} {p : Nat → Panics}
    {t u : Stripping V} (h : SBase w es t) (hs : Stripping.Step p w.counter t u) : SBase w es u := by
  cases hs with
  | @delete k s e rest s' hk ht hd =>
    obtain ⟨h2, h3, h4⟩ := drop_next (h.now ht)
    refine ⟨by show (setK t.stos k s').map Prod.fst = _; rw [setK_keys_eq hk, h.keys], ?_, ?_, ?_⟩
    · intro j
      show (if j = k then t.pos j + 1 else t.pos j) ≤ _
      split
      · rename_i hj; rw [hj]; exact h2
      · exact h.len j
    · intro j
      show (if j = k then rest else t.todo j) = es.drop (if j = k then t.pos j + 1 else t.pos j) ∨
        ((if j = k then rest else t.todo j) = [] ∧ _)
      by_cases hj : j = k
      · rw [if_pos hj, if_pos hj, hj]; exact .inl h3.symm
      · rw [if_neg hj, if_neg hj]; exact h.todo j
    · intro hu j s0 s1 h0 h1
      have h1 : lookupK (setK t.stos k s') j = some s1 := h1
      show _ = stoDeleteAll w.counter (if j = k then rest else t.todo j) s1
      rw [lookupK_setK] at h1
      by_cases hj : j = k
      · subst hj
        rw [if_pos rfl] at h1 ⊢
        cases h1
        rw [h.same hu j s0 s h0 hk, ht]
        simp only [stoDeleteAll, stoDeleteU_returned hd, bind, Except.bind]
      · rw [if_neg hj] at h1 ⊢
        exact h.same hu j s0 s1 h0 h1
  | @unwind k s e rest x s' hk ht hd =>
    obtain ⟨h2, h3, h4⟩ := drop_next (h.now ht)
    refine ⟨by show (setK t.stos k s').map Prod.fst = _; rw [setK_keys_eq hk, h.keys], ?_, ?_,
      (fun h => by cases h)⟩
    · intro j
      show (if j = k then t.pos j + 1 else t.pos j) ≤ _
      split
      · rename_i hj; rw [hj]; exact h2
      · exact h.len j
    · intro j
      show (if j = k then [] else t.todo j) = es.drop (if j = k then t.pos j + 1 else t.pos j) ∨
          ((if j = k then [] else t.todo j) = [] ∧ true = true)
      by_cases hj : j = k
      · rw [if_pos hj]; exact .inr ⟨rfl, rfl⟩
      · rw [if_neg hj, if_neg hj]
        exact (h.todo j).imp id fun h => ⟨h.1, rfl⟩
  | @skip k s hk hu hp ht =>
    refine ⟨h.keys, h.len, ?_, ?_⟩
    · intro j
      show (if j = k then [] else t.todo j) = es.drop (t.pos j) ∨ ((if j = k then [] else t.todo j) = [] ∧ t.unwinding = true)
      by_cases hj : j = k
      · rw [if_pos hj]; exact .inr ⟨rfl, hu⟩
      · rw [if_neg hj]; exact h.todo j
    · intro hn
      have hn : t.unwinding = false := hn
      rw [hu] at hn; cases hn

theorem SBase.steps {w : World V} {es : List EId} {p : Nat → Panics}
    {n : Nat} {t u : Stripping V} (h : SBase w es t) (hs : Stripping.Steps p w.counter n t u) : SBase w es u := by
  induction hs with
  | refl => exact h
  | tail _ hs ih => exact (ih h).step hs

/-- The deletion of one id, whether it returned or not. -/
theorem SInv.deletion {w : World V} {A Q} {I es : List EId} (hes : ∀ e ∈ es, Valid e) {t : Stripping V}
    (hb : SBase w es t) (h : SInv fl w A Q I es t) {p : Bool × Bool} {k : Nat} {s s' : SparseSet V} {e : EId}
    {rest : List EId} {out} (hk : lookupK t.stos k = some s) (ht : t.todo k = e :: rest)
    (hd : stoDeleteU p e w.counter s = .ok (out, s')) :
    PReach fl ((t.next k rest s').world w) I ∧
    ∃ A', Sound ((t.next k rest s').world w) A' Q I ∧
      ∀ j x, look A' j x = if ∃ e ∈ es.take ((t.next k rest s').pos j), Hit e x then none else look A j x := by
  have h1 := hb.now ht
  obtain ⟨h2, h3, h4⟩ := drop_next h1
  have he : Valid e := hes e (List.mem_of_mem_drop (h1 ▸ List.mem_cons_self))
  obtain ⟨A', g1, g2⟩ := h.sound
  obtain ⟨out', s1, A2, g3, g4, g5⟩ := g1.deleteIn he w.counter k p (s := s) hk
  rw [hd] at g3
  cases g3
  refine ⟨stoDeleteU_reach h.reach he hk hd, A2, g4, ?_⟩
  intro j x
  rw [g5, g2]
  have hp : (t.next k rest s').pos j = if j = k then t.pos j + 1 else t.pos j := rfl
  rw [hp]
  by_cases hj : j = k
  · subst hj
    rw [if_pos rfl, h4]
    by_cases hh : Hit e x
    · rw [if_pos ⟨rfl, hh⟩, if_pos ⟨e, by simp, hh⟩]
    · rw [if_neg (fun h => hh h.2)]
      by_cases hb : ∃ e ∈ es.take (t.pos j), Hit e x
      · obtain ⟨d, hd, hdx⟩ := hb
        rw [if_pos ⟨d, hd, hdx⟩, if_pos ⟨d, List.mem_append_left _ hd, hdx⟩]
      · rw [if_neg hb, if_neg]
        rintro ⟨d, hd, hdx⟩
        rcases List.mem_append.1 hd with hd | hd
        · exact hb ⟨d, hd, hdx⟩
        · simp only [List.mem_singleton] at hd
          subst hd; exact hh hdx
  · rw [if_neg (fun h => hj h.1), if_neg hj]

theorem SInv.step {w : World V} {A Q} {I es : List EId} (hes : ∀ e ∈ es, Valid e) {p : Nat → Panics}
    {t u : Stripping V} (hb : SBase w es t) (h : SInv fl w A Q I es t)
    (hs : Stripping.Step p w.counter t u) : SInv fl w A Q I es u := by
  cases hs with
  | delete hk ht hd =>
    obtain ⟨g3, g6⟩ := h.deletion hes hb hk ht hd
    exact ⟨g3, g6⟩
  | unwind hk ht hd =>
    obtain ⟨g3, g6⟩ := h.deletion hes hb hk ht hd
    exact ⟨g3, g6⟩
  | skip hk hu hp ht => exact ⟨h.reach, h.sound⟩

theorem SInv.steps {w : World V} {A Q} {I es : List EId} (hes : ∀ e ∈ es, Valid e) {p : Nat → Panics}
    {n : Nat} {t u : Stripping V} (hb : SBase w es t) (h : SInv fl w A Q I es t)
    (hs : Stripping.Steps p w.counter n t u) : SInv fl w A Q I es u := by
  induction hs with
  | refl => exact h
  | tail h1 hs ih => exact (ih hb h).step hes (hb.steps h1) hs

/-- How much is left to do in storages `ks`. -/
def left (ks : List Nat) (todo : Nat → List EId) : Nat := (ks.map fun k => (todo k).length).sum

theorem left_set {ks : List Nat} {todo : Nat → List EId} {k : Nat} {r : List EId}
    (hr : r.length < (todo k).length) (hk : k ∈ ks) :
    left ks (fun j => if j = k then r else todo j) + 1 ≤ left ks todo := by
  have hle : ∀ ks : List Nat, left ks (fun j => if j = k then r else todo j) ≤ left ks todo := by
    intro ks
    induction ks with
    | nil => exact Nat.le_refl _
    | cons i ks ih =>
      unfold left at ih ⊢
      simp only [List.map_cons, List.sum_cons] at ih ⊢
      have : (if i = k then r else todo i).length ≤ (todo i).length := by
        split
        · rename_i hi; rw [hi]; omega
        · exact Nat.le_refl _
      omega
  induction ks with
  | nil => cases hk
  | cons i ks ih =>
    have h1 := hle ks
    rcases List.mem_cons.1 hk with hk | hk
    · subst hk
      unfold left at h1 ⊢
      simp only [List.map_cons, List.sum_cons, if_pos] at h1 ⊢
      omega
    · have h2 := ih hk
      unfold left at h2 ⊢
      simp only [List.map_cons, List.sum_cons] at h2 ⊢
      have : (if i = k then r else todo i).length ≤ (todo i).length := by
        split
        · rename_i hi; rw [hi]; omega
        · exact Nat.le_refl _
      omega

theorem steps_left {w : World V} {es : List EId} {p : Nat → Panics}
    {n : Nat} {t u : Stripping V} (h : SBase w es t) (hs : Stripping.Steps p w.counter n t u) :
    n + left (w.stos.map Prod.fst) u.todo ≤ left (w.stos.map Prod.fst) t.todo := by
  induction hs with
  | refl => omega
  | @tail n t u v h1 hs ih =>
    have hu := h.steps h1
    have ih := ih h
    have hmem : ∀ {k s}, lookupK u.stos k = some s → k ∈ w.stos.map Prod.fst := by
      intro k s hk
      rw [← hu.keys]
      exact List.mem_map.2 ⟨_, lookupK_mem hk, rfl⟩
    cases hs with
    | @delete k s e rest s' hk ht hd =>
      have := left_set (todo := u.todo) (r := rest) (k := k) (by rw [ht]; simp) (hmem hk)
      show n + 1 + left _ (fun j => if j = k then rest else u.todo j) ≤ _
      omega
    | @unwind k s e rest x s' hk ht hd =>
      have := left_set (todo := u.todo) (r := []) (k := k) (by rw [ht]; simp) (hmem hk)
      show n + 1 + left _ (fun j => if j = k then [] else u.todo j) ≤ _
      omega
    | @skip k s hk hx hp ht =>
      have := left_set (todo := u.todo) (r := []) (k := k) (List.length_pos_iff.2 ht) (hmem hk)
      show n + 1 + left _ (fun j => if j = k then [] else u.todo j) ≤ _
      omega

theorem mapStos_of {f : Nat → SparseSet V → Res (SparseSet V)} {l l' : List (Nat × SparseSet V)}
    (hn : (l.map Prod.fst).Nodup) (hk : l'.map Prod.fst = l.map Prod.fst)
    (h : ∀ k s s', lookupK l k = some s → lookupK l' k = some s' → f k s = .ok s') :
    mapStos f l = .ok l' := by
  induction l generalizing l' with
  | nil => cases l' with
    | nil => rfl
    | cons => cases hk
  | cons x l ih =>
    cases l' with
    | nil => cases hk
    | cons y l' =>
      obtain ⟨k, s⟩ := x
      obtain ⟨k', s'⟩ := y
      simp only [List.map_cons, List.cons.injEq] at hk
      obtain ⟨rfl, hk⟩ := hk
      simp only [List.map_cons, List.nodup_cons] at hn
      have h1 := h k' s s' (by simp [lookupK]) (by simp [lookupK])
      have h2 := ih hn.2 hk (by
        intro j a b ha hb
        have hj : j ≠ k' := by
          intro hj
          subst hj
          exact hn.1 (List.mem_map.2 ⟨_, lookupK_mem ha, rfl⟩)
        exact h j a b (by simp only [lookupK, if_neg hj, ha]) (by simp only [lookupK, if_neg hj, hb]))
      simp only [mapStos, h1, h2, bind, Except.bind]

theorem steps_le {w : World V} {es : List EId} {p : Nat → Panics} {n : Nat} {t : Stripping V}
    (hs : Stripping.Steps p w.counter n (Stripping.start w es) t) : n ≤ w.stos.length * es.length := by
  have h1 := steps_left (.start w es) hs
  have h2 : World.left (w.stos.map Prod.fst) (Stripping.start w es).todo = w.stos.length * es.length := by
    unfold World.left Stripping.start
    simp only [List.map_map, Function.comp_def, List.map_const', List.sum_replicate_nat]
  omega

theorem as_bulk_strip {w : World V} {es : List EId} {p : Nat → Panics} {n : Nat} {t : Stripping V}
    (hn : (w.stos.map Prod.fst).Nodup) (hs : Stripping.Steps p w.counter n (Stripping.start w es) t)
    (hd : t.Done) (hu : t.unwinding = false) : w.bulkStrip es = .ok (t.world w) := by
  have h := (SBase.start w es).steps hs
  have : mapStos (fun _ => stoDeleteAll w.counter es) w.stos = .ok t.stos := by
    refine mapStos_of hn h.keys ?_
    intro k s s' h1 h2
    rw [h.same hu k s s' h1 h2, hd k s' h2]
    rfl
  unfold World.bulkStrip
  simp only [this, bind, Except.bind]
  rfl

theorem mapStos_inv {f : Nat → SparseSet V → Res (SparseSet V)} {l l' : List (Nat × SparseSet V)}
    (h : mapStos f l = .ok l') {k : Nat} {s : SparseSet V} (hk : lookupK l k = some s) :
    ∃ s', f k s = .ok s' := by
  induction l generalizing l' with
  | nil => cases hk
  | cons x l ih =>
    obtain ⟨i, c⟩ := x
    simp only [mapStos, bind, Except.bind] at h
    cases h1 : f i c with
    | error e => rw [h1] at h; cases h
    | ok s' =>
      rw [h1] at h
      cases h2 : mapStos f l with
      | error e => rw [h2] at h; cases h
      | ok l2 =>
        unfold lookupK at hk
        split at hk
        · rename_i hki; cases hk; exact ⟨s', hki ▸ h1⟩
        · exact ih h2 hk

end World

open Stripping in
/-- C90. Whatever the interleaving and whichever callbacks and destructors panic: no task ever fails to run its
next deletion, the tasks do not wait for each other, there are at most as many steps as storages times ids; at
any moment, and so in the end, the entities are as alive as before and storage `k` has lost the components of
the first `i` ids exactly, for some `i` of its own. The world left is one to which C73 applies. -/
theorem C90_par_strip {w : World V} {I : List EId} (hr : PReach fl w I) (p : Nat → Panics) {es : List EId}
    (he : ∀ e ∈ es, e ∈ I) {n : Nat} {t : Stripping V} (hs : Steps p w.counter n (start w es) t) :
    (∀ k s e rest, lookupK t.stos k = some s → t.todo k = e :: rest →
      (∃ out s', stoDeleteU (p k (t.pos k)) e w.counter s = .ok (out, s')) ∧ ∃ u, Step p w.counter t u) ∧
    n ≤ w.stos.length * es.length ∧
    PReach fl (t.world w) I ∧
    (∀ x, (t.world w).isAlive x = w.isAlive x) ∧
    ∀ k, ∃ i, i ≤ es.length ∧ (t.Done → t.unwinding = false → k ∈ w.stos.map Prod.fst → i = es.length) ∧
      ∀ x, w.isAlive x = true →
        (t.world w).get k x = if x ∈ es.take i then .ok none else w.get k x := by
  obtain ⟨A, Q, hok⟩ := preach_ok hr
  have hv : ∀ e ∈ es, Valid e := fun e h => hok.ent.valid_issued (he e h)
  have h := (SBase.start w es).steps hs
  have h' := (SInv.start (es := es) hr hok).steps hv (.start w es) hs
  obtain ⟨A', g1, g2⟩ := h'.sound
  refine ⟨?_, steps_le hs, h'.reach, fun x => rfl, ?_⟩
  · intro k s e rest hk ht
    have hm : e ∈ es := by
      rcases h.todo k with h1 | ⟨h1, _⟩
      · exact List.mem_of_mem_drop (i := t.pos k) (by rw [← h1, ht]; exact List.mem_cons_self)
      · rw [ht] at h1; cases h1
    obtain ⟨out, s', _, h1, _⟩ := g1.deleteIn (hv e hm) w.counter k (p k (t.pos k)) (s := s) hk
    refine ⟨⟨out, s', h1⟩, ?_⟩
    cases out with
    | returned _ => exact ⟨_, .delete hk ht h1⟩
    | unwound u => exact ⟨_, .unwind hk ht h1⟩
  · intro k
    refine ⟨t.pos k, h.len k, ?_, ?_⟩
    · intro hd hu hk
      have hks : ∃ s, lookupK t.stos k = some s := by
        cases hl : lookupK t.stos k with
        | some s => exact ⟨s, rfl⟩
        | none =>
          rw [lookupK_none, h.keys] at hl
          exact absurd hk hl
      obtain ⟨s, hs⟩ := hks
      rcases h.todo k with h1 | ⟨_, h1⟩
      · rw [hd k s hs] at h1
        have := h.len k
        have h2 := List.drop_eq_nil_iff.1 h1.symm
        omega
      · rw [hu] at h1; cases h1
    · intro x hx
      have hg := (hok.ent.valid hx).1
      rw [g1.get k hg, hok.get k hg, g2]
      by_cases hm : x ∈ es.take (t.pos k)
      · rw [if_pos hm, if_pos ⟨x, hm, rfl, Nat.le_refl _⟩]
      · rw [if_neg hm, if_neg]
        rintro ⟨e, hem, hh⟩
        exact hok.not_hit (he e (List.mem_of_mem_take hem)) hx
          (fun hxe => hm (hxe ▸ hem)) hh

open Stripping in
/-- C90: when no user code panicked, `par_strip` leaves exactly the world `bulk_strip` leaves, logs of deletions
and timestamps included, whatever the interleaving. -/
theorem C90_as_bulk_strip {w : World V} {I : List EId} (hr : PReach fl w I) (p : Nat → Panics) {es : List EId}
    {n : Nat} {t : Stripping V} (hs : Steps p w.counter n (start w es) t)
    (hd : t.Done) (hu : t.unwinding = false) : w.bulkStrip es = .ok (t.world w) := by
  obtain ⟨A, Q, hok⟩ := preach_ok hr
  exact as_bulk_strip hok.nodup hs hd hu

open Stripping in
/-- C90: without panics in user code no task is left out or cut short. -/
theorem C90_calm {w : World V} {n : Nat} {es : List EId} {t : Stripping V}
    (hs : Steps (fun _ => calm) w.counter n (start w es) t) : t.unwinding = false := by
  generalize h0 : start w es = t0 at hs
  induction hs with
  | refl => subst h0; rfl
  | tail _ hs ih =>
    cases hs with
    | delete => exact ih h0
    | unwind _ _ h => exact (stoDeleteU_calm h).elim
    | skip _ hu => rw [ih h0] at hu; cases hu

open Stripping in
/-- C90, C42: without panics, from every world the API makes (entities moved and cloned between worlds
included) and for every interleaving: every task can always go on, the tasks end, and then the ids have lost all
their components, everything else is as before, and the world is again one the API makes. -/
theorem C90_strips {w : World V} {h : List EntSpec.Event} (hr : Reach fl w h) {es : List EId}
    (he : ∀ e ∈ es, e ∈ EntSpec.issued h) {n : Nat} {t : Stripping V}
    (hs : Steps (fun _ => calm) w.counter n (start w es) t) :
    (∀ k s e rest, lookupK t.stos k = some s → t.todo k = e :: rest →
      ∃ s', Step (fun _ => calm) w.counter t (t.next k rest s')) ∧
    n ≤ w.stos.length * es.length ∧
    (t.Done → Reach fl (t.world w) h ∧ (∀ x, (t.world w).isAlive x = w.isAlive x) ∧
      (∀ k, ∀ e ∈ es, (t.world w).get k e = .ok none) ∧
      ∀ k x, x ∉ es → x.gen < 65535 → (t.world w).get k x = w.get k x) := by
  obtain ⟨A, Q, hok⟩ := reach_ok hr
  obtain ⟨w', h2, h5, h3, h4⟩ := C42_bulk_strip hr he
  have hu := C90_calm hs
  refine ⟨?_, steps_le hs, ?_⟩
  · intro k s e rest hk ht
    have hb := (SBase.start w es).steps hs
    have h6 : ∃ l, mapStos (fun _ => stoDeleteAll w.counter es) w.stos = .ok l := by
      unfold World.bulkStrip at h2
      simp only [bind, Except.bind] at h2
      split at h2
      · cases h2
      · exact ⟨_, by assumption⟩
    obtain ⟨l, h6⟩ := h6
    have h7 : ∃ s0, lookupK w.stos k = some s0 := by
      cases hl : lookupK w.stos k with
      | some s => exact ⟨s, rfl⟩
      | none =>
        rw [lookupK_none, ← hb.keys, ← lookupK_none, hk] at hl
        cases hl
    obtain ⟨s0, h7⟩ := h7
    obtain ⟨s1, h8⟩ := mapStos_inv h6 h7
    rw [hb.same hu k s0 s h7 hk, ht] at h8
    simp only [stoDeleteAll, bind, Except.bind] at h8
    cases h9 : stoDelete e w.counter s with
    | error f => rw [h9] at h8; cases h8
    | ok s' => exact ⟨s', .delete hk ht (stoDeleteU_plain h9)⟩
  · intro hd
    have h1 := as_bulk_strip hok.nodup hs hd hu
    rw [h1] at h2
    cases h2
    exact ⟨.bulkStrip hr (fun e h => issued_valid hok (he e h)) h1, h5, h3, h4⟩

/-! ## Witnesses -/

/-- Two tasks taking turns: the ids 0 and 1 in storages 0 and 1 of `demo`. -/
example : ∃ t : Stripping Nat,
    Stripping.Steps (fun _ => calm) demo.counter 4 (Stripping.start demo [⟨0, 0⟩, ⟨1, 0⟩]) t ∧ t.Done ∧
      (t.world demo).get 0 ⟨1, 0⟩ = .ok none ∧ (t.world demo).get 1 ⟨2, 0⟩ = .ok (some 22) := by
  refine ⟨_, .tail (.tail (.tail (.tail (.refl _) (.delete (k := 1) rfl rfl rfl)) (.delete (k := 0) rfl rfl rfl))
    (.delete (k := 0) rfl rfl rfl)) (.delete (k := 1) rfl rfl rfl), ?_, rfl, rfl⟩
  intro k s h
  by_cases h0 : k = 0
  · subst h0; rfl
  · by_cases h1 : k = 1
    · subst h1; rfl
    · exfalso
      have hm : k ∈ [0, 1] := List.mem_map_of_mem (f := Prod.fst) (lookupK_mem h)
      simp at hm
      omega

/-- A destructor panics in storage 0 while deleting the first id; storage 1 goes on, or is never begun. -/
example : ∃ t u : Stripping Nat,
    Stripping.Steps (fun k _ => (false, k == 0)) pdemo.counter 2 (Stripping.start pdemo [⟨0, 0⟩, ⟨1, 0⟩]) t ∧
    Stripping.Steps (fun k _ => (false, k == 0)) pdemo.counter 2 (Stripping.start pdemo [⟨0, 0⟩, ⟨1, 0⟩]) u ∧
      t.unwinding = true ∧ u.unwinding = true ∧ t.todo 1 = [⟨1, 0⟩] ∧ u.todo 1 = [] ∧
      (t.world pdemo).get 0 ⟨0, 0⟩ = .ok none ∧ (t.world pdemo).get 1 ⟨0, 0⟩ = .ok none ∧
      (u.world pdemo).get 1 ⟨0, 0⟩ = pdemo.get 1 ⟨0, 0⟩ ∧ (pdemo.get 1 ⟨0, 0⟩).toOption.join.isSome = true :=
  ⟨_, _, .tail (.tail (.refl _) (.unwind (k := 0) rfl rfl rfl)) (.delete (k := 1) rfl rfl rfl),
    .tail (.tail (.refl _) (.unwind (k := 0) rfl rfl rfl)) (.skip (k := 1) rfl rfl rfl (by decide)),
    rfl, rfl, rfl, rfl, rfl, rfl, rfl, rfl⟩

end Verif
