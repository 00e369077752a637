import Verif.Lemmas.Schedule

/-! # The requirement checks -/
namespace Verif.Sched

variable {W ε : Type}

open Relation (TransGen)

theorem mem_unmet (req : List Label) (ss : List (Sys W ε)) (l : Label) :
    l ∈ unmet req ss ↔ l ∈ req ∧ ∀ s ∈ ss, l ∉ s.tags := by
  unfold unmet
  induction ss generalizing req with
  | nil => simp
  | cons a t ih =>
    rw [List.foldl_cons, ih, List.mem_filter]
    simp [and_assoc]

theorem isEmpty_unmet (req : List Label) (ss : List (Sys W ε)) :
    (unmet req ss).isEmpty = true ↔ ∀ l ∈ req, ∃ s ∈ ss, l ∈ s.tags := by
  rw [List.isEmpty_iff, List.eq_nil_iff_forall_not_mem]
  constructor
  · intro h l hl
    apply Classical.byContradiction
    intro hno
    exact h l ((mem_unmet _ _ _).mpr ⟨hl, fun s hs hm => hno ⟨s, hs, hm⟩⟩)
  · intro h l hl
    obtain ⟨h1, h2⟩ := (mem_unmet _ _ _).mp hl
    obtain ⟨s, hs, hm⟩ := h l h1
    exact h2 s hs hm

/-! ## Depth-first search -/

/-- The common shape of `recursive_add_systems_before` and `recursive_add_systems_after`. -/
def dfs (ch : Nat → List Nat) : Nat → List Nat → Nat → Except Fail (List Nat)
  | fuel, seen, i =>
    if i ∈ seen then .ok seen
    else
      match fuel with
      | 0 => .error (.fault .diverge)
      | fuel + 1 => (ch i).foldlM (dfs ch fuel) (addId seen i)

/-- Positions not seen yet. -/
def fresh (n : Nat) (seen : List Nat) : Nat := (List.range n).countP fun x => decide (x ∉ seen)

theorem countP_lt {p q : Nat → Bool} {i : Nat} : ∀ (l : List Nat), (∀ x, q x = true → p x = true) → i ∈ l →
    p i = true → q i = false → l.countP q < l.countP p := by
  intro l h hi hp hq
  induction l with
  | nil => cases hi
  | cons a t ih =>
    rw [List.countP_cons, List.countP_cons]
    have hle : t.countP q ≤ t.countP p := List.countP_mono_left (fun x _ => h x)
    rcases List.mem_cons.mp hi with rfl | hi'
    · rw [hp, hq]
      simp
      omega
    · have := ih hi'
      cases hqa : q a with
      | true =>
        rw [h a hqa]
        simp
        omega
      | false =>
        simp
        omega

theorem fresh_mono {n : Nat} {s s' : List Nat} (h : ∀ x ∈ s, x ∈ s') : fresh n s' ≤ fresh n s := by
  unfold fresh
  apply List.countP_mono_left
  intro x _ hx
  simp only [decide_eq_true_eq] at hx ⊢
  exact fun hm => hx (h x hm)

theorem fresh_add {n i : Nat} {s : List Nat} (hi : i < n) (hn : i ∉ s) : fresh n (addId s i) < fresh n s := by
  unfold fresh
  refine countP_lt (i := i) _ ?_ (List.mem_range.mpr hi) (by simpa using hn) (by simp [mem_addId])
  intro x hx
  simp only [decide_eq_true_eq, mem_addId, not_or] at hx ⊢
  exact hx.2

structure Explored (ch : Nat → List Nat) (n : Nat) (seen seen' : List Nat) : Prop where
  sub : ∀ x ∈ seen, x ∈ seen'
  lt : ∀ x ∈ seen', x < n
  closed : ∀ x ∈ seen', x ∉ seen → ∀ y ∈ ch x, y ∈ seen'

/-- `b` is a child of `a`. -/
def Child (ch : Nat → List Nat) (a b : Nat) : Prop := b ∈ ch a

theorem dfs_ok (ch : Nat → List Nat) (n : Nat) (hch : ∀ i, i < n → ∀ j ∈ ch i, j < n) (fuel : Nat) :
    ∀ (seen : List Nat) (i : Nat), i < n → (∀ x ∈ seen, x < n) → fresh n seen ≤ fuel →
    ∃ seen', dfs ch fuel seen i = .ok seen' ∧ Explored ch n seen seen' ∧ i ∈ seen'
      ∧ ∀ x ∈ seen', x ∈ seen ∨ x = i ∨ TransGen (Child ch) i x := by
  induction fuel with
  | zero =>
    intro seen i hi hs hf
    have hm : i ∈ seen := by
      apply Classical.byContradiction
      intro hn
      have := fresh_add hi hn
      omega
    refine ⟨seen, ?_, ⟨fun _ h => h, hs, fun x h h' => absurd h h'⟩, hm, fun x h => .inl h⟩
    unfold dfs
    rw [if_pos hm]
  | succ f ih =>
    intro seen i hi hs hf
    by_cases hm : i ∈ seen
    · refine ⟨seen, ?_, ⟨fun _ h => h, hs, fun x h h' => absurd h h'⟩, hm, fun x h => .inl h⟩
      unfold dfs
      rw [if_pos hm]
    · have step : dfs ch (f + 1) seen i = (ch i).foldlM (dfs ch f) (addId seen i) := by
        show (if i ∈ seen then _ else _) = _
        rw [if_neg hm]
      have loop : ∀ (l : List Nat), (∀ j ∈ l, j < n) → ∀ (s : List Nat), (∀ x ∈ s, x < n) → fresh n s ≤ f →
          ∃ s', l.foldlM (dfs ch f) s = .ok s' ∧ Explored ch n s s' ∧ (∀ j ∈ l, j ∈ s')
            ∧ ∀ x ∈ s', x ∈ s ∨ ∃ j ∈ l, x = j ∨ TransGen (Child ch) j x := by
        intro l
        induction l with
        | nil =>
          intro _ s hs _
          exact ⟨s, rfl, ⟨fun _ h => h, hs, fun x h h' => absurd h h'⟩, (fun j hj => by cases hj), fun x h => .inl h⟩
        | cons a t iht =>
          intro hl s hs hf
          obtain ⟨s1, e1, x1, m1, r1⟩ := ih s a (hl a (by simp)) hs hf
          obtain ⟨s2, e2, x2, m2, r2⟩ := iht (fun j hj => hl j (List.mem_cons_of_mem _ hj)) s1 x1.lt
            (Nat.le_trans (fresh_mono x1.sub) hf)
          refine ⟨s2, ?_, ?_, ?_, ?_⟩
          · rw [List.foldlM_cons, e1]
            exact e2
          · refine ⟨fun x hx => x2.sub x (x1.sub x hx), x2.lt, ?_⟩
            intro x hx hns y hy
            by_cases h1 : x ∈ s1
            · exact x2.sub y (x1.closed x h1 hns y hy)
            · exact x2.closed x hx h1 y hy
          · intro j hj
            rcases List.mem_cons.mp hj with rfl | hj
            · exact x2.sub j m1
            · exact m2 j hj
          · intro x hx
            rcases r2 x hx with h | ⟨j, hj, h⟩
            · rcases r1 x h with h | h
              · exact .inl h
              · exact .inr ⟨a, by simp, h⟩
            · exact .inr ⟨j, List.mem_cons_of_mem _ hj, h⟩
      have hs1 : ∀ x ∈ addId seen i, x < n := by
        intro x hx
        rcases (mem_addId _ _ _).mp hx with rfl | hx
        · exact hi
        · exact hs x hx
      have hf1 : fresh n (addId seen i) ≤ f := by
        have := fresh_add hi hm
        omega
      obtain ⟨s', e, xp, m, r⟩ := loop (ch i) (hch i hi) (addId seen i) hs1 hf1
      refine ⟨s', step.trans e, ⟨?_, xp.lt, ?_⟩, ?_, ?_⟩
      · intro x hx
        exact xp.sub x ((mem_addId _ _ _).mpr (.inr hx))
      · intro x hx hns y hy
        by_cases hxi : x = i
        · subst hxi
          exact m y hy
        · exact xp.closed x hx (fun h => by
            rcases (mem_addId _ _ _).mp h with h | h
            · exact hxi h
            · exact hns h) y hy
      · exact xp.sub i ((mem_addId _ _ _).mpr (.inl rfl))
      · intro x hx
        rcases r x hx with h | ⟨j, hj, h⟩
        · rcases (mem_addId _ _ _).mp h with h | h
          · exact .inr (.inl h)
          · exact .inl h
        · refine .inr (.inr ?_)
          rcases h with rfl | h
          · exact .single hj
          · exact TransGen.cons hj h

theorem fresh_le (n : Nat) (s : List Nat) : fresh n s ≤ n := by
  unfold fresh
  exact Nat.le_trans List.countP_le_length (by simp)

/-- Searching from a list of starting points. -/
theorem dfs_all (ch : Nat → List Nat) (n : Nat) (hch : ∀ i, i < n → ∀ j ∈ ch i, j < n) (l : List Nat)
    (hl : ∀ j ∈ l, j < n) : ∃ s, l.foldlM (dfs ch n) [] = .ok s
      ∧ ∀ x, x ∈ s ↔ ∃ j ∈ l, x = j ∨ TransGen (Child ch) j x := by
  have loop : ∀ (l : List Nat), (∀ j ∈ l, j < n) → ∀ (s : List Nat), (∀ x ∈ s, x < n) →
      ∃ s', l.foldlM (dfs ch n) s = .ok s' ∧ Explored ch n s s' ∧ (∀ j ∈ l, j ∈ s')
        ∧ ∀ x ∈ s', x ∈ s ∨ ∃ j ∈ l, x = j ∨ TransGen (Child ch) j x := by
    intro l
    induction l with
    | nil =>
      intro _ s hs
      exact ⟨s, rfl, ⟨fun _ h => h, hs, fun x h h' => absurd h h'⟩, (fun j hj => by cases hj), fun x h => .inl h⟩
    | cons a t iht =>
      intro hl s hs
      obtain ⟨s1, e1, x1, m1, r1⟩ := dfs_ok ch n hch n s a (hl a (by simp)) hs (fresh_le n s)
      obtain ⟨s2, e2, x2, m2, r2⟩ := iht (fun j hj => hl j (List.mem_cons_of_mem _ hj)) s1 x1.lt
      refine ⟨s2, ?_, ?_, ?_, ?_⟩
      · rw [List.foldlM_cons, e1]
        exact e2
      · refine ⟨fun x hx => x2.sub x (x1.sub x hx), x2.lt, ?_⟩
        intro x hx hns y hy
        by_cases h1 : x ∈ s1
        · exact x2.sub y (x1.closed x h1 hns y hy)
        · exact x2.closed x hx h1 y hy
      · intro j hj
        rcases List.mem_cons.mp hj with rfl | hj
        · exact x2.sub j m1
        · exact m2 j hj
      · intro x hx
        rcases r2 x hx with h | ⟨j, hj, h⟩
        · rcases r1 x h with h | h
          · exact .inl h
          · exact .inr ⟨a, by simp, h⟩
        · exact .inr ⟨j, List.mem_cons_of_mem _ hj, h⟩
  obtain ⟨s, e, xp, m, r⟩ := loop l hl [] (fun x hx => by cases hx)
  refine ⟨s, e, fun x => ⟨?_, ?_⟩⟩
  · intro hx
    rcases r x hx with h | h
    · cases h
    · exact h
  · rintro ⟨j, hj, h⟩
    rcases h with rfl | h
    · exact m x hj
    · induction h with
      | single h => exact xp.closed _ (m j hj) (by simp) _ h
      | tail _ h ih => exact xp.closed _ ih (by simp) _ h

/-! ## `check_require_before` -/

def hardOf (ss : List (Sys W ε)) (i : Nat) : List Nat :=
  match ss[i]? with
  | some s => s.hardAfter
  | none => []

theorem foldlM_congr {f g : List Nat → Nat → Except Fail (List Nat)} (l : List Nat)
    (h : ∀ s, ∀ j ∈ l, f s j = g s j) : ∀ s, l.foldlM f s = l.foldlM g s := by
  induction l with
  | nil => intro s; rfl
  | cons a t ih =>
    intro s
    rw [List.foldlM_cons, List.foldlM_cons, h s a (by simp)]
    have := ih (fun s j hj => h s j (List.mem_cons_of_mem _ hj))
    congr 1
    funext s'
    exact this s'

theorem addBefore_dfs (ss : List (Sys W ε)) (hh : ∀ i, i < ss.length → ∀ j ∈ hardOf ss i, j < ss.length)
    (fuel : Nat) : ∀ (seen : List Nat) (i : Nat), i < ss.length → addBefore ss fuel seen i = dfs (hardOf ss) fuel seen i := by
  induction fuel with
  | zero =>
    intro seen i hi
    unfold addBefore dfs
    rfl
  | succ f ih =>
    intro seen i hi
    have h1 : hardOf ss i = ss[i].hardAfter := by
      unfold hardOf
      rw [List.getElem?_eq_getElem hi]
    unfold addBefore dfs
    by_cases hm : i ∈ seen
    · rw [if_pos hm, if_pos hm]
    · rw [if_neg hm, if_neg hm]
      rw [List.getElem?_eq_getElem hi]
      show List.foldlM _ _ ss[i].hardAfter = _
      rw [← h1]
      exact foldlM_congr _ (fun s j hj => ih s j (hh i hi j hj)) _

theorem mem_pick (ss : List (Sys W ε)) (ids : List Nat) (s : Sys W ε) :
    s ∈ pick ss ids ↔ ∃ i ∈ ids, ss[i]? = some s := by
  unfold pick
  rw [List.mem_filterMap]

theorem TransGen.swap {α : Type} {R : α → α → Prop} {a b : α} (h : TransGen R a b) :
    TransGen (fun x y => R y x) b a := by
  induction h with
  | single h => exact .single h
  | tail _ h ih => exact TransGen.cons h ih

theorem Graph.hard {w : Workload W ε} {xs ss : List (Sys W ε)} (h : Graph w xs ss) {i j : Nat} :
    Child (hardOf ss) i j ↔ Explicit w j i ∨ Nearest w j i := by
  unfold Child hardOf
  cases hi : ss[i]? with
  | some s =>
    obtain ⟨_, _, _, _, _, _, hh, _⟩ := h.sys i s hi
    exact hh j
  | none =>
    simp only [List.not_mem_nil, false_iff]
    have hl : ss.length ≤ i := by simpa using hi
    rw [h.len] at hl
    rintro (h' | h')
    · have := (explicit_lt h').2.1; omega
    · have := (implicit_lt (nearest_implicit h')).2; omega

theorem Graph.hard_lt {w : Workload W ε} {xs ss : List (Sys W ε)} (h : Graph w xs ss) :
    ∀ i, i < ss.length → ∀ j ∈ hardOf ss i, j < ss.length := by
  intro i _ j hj
  rw [h.len]
  rcases h.hard.mp hj with h' | h'
  · exact (explicit_lt h').1
  · exact (implicit_lt (nearest_implicit h')).1

/-- The systems `check_require_before` considers to be before `i`. -/
theorem before_set {w : Workload W ε} {xs ss : List (Sys W ε)} (h : Graph w xs ss) {i : Nat} {s : Sys W ε}
    (hi : ss[i]? = some s) : ∃ ids, s.hardAfter.foldlM (addBefore ss ss.length) [] = .ok ids
      ∧ ∀ x, x ∈ ids ↔ Ordered w x i := by
  have hs : hardOf ss i = s.hardAfter := by unfold hardOf; rw [hi]
  have hil : i < ss.length := (List.getElem?_eq_some_iff.mp hi).1
  obtain ⟨ids, e, hm⟩ := dfs_all (hardOf ss) ss.length h.hard_lt s.hardAfter (by
    rw [← hs]; exact h.hard_lt i hil)
  refine ⟨ids, ?_, ?_⟩
  · rw [foldlM_congr _ (fun t j hj => addBefore_dfs ss h.hard_lt ss.length t j (h.hard_lt i hil j (by rw [hs]; exact hj)))]
    exact e
  · intro x
    rw [hm x]
    constructor
    · rintro ⟨j, hj, hx⟩
      have hji : Explicit w j i ∨ Nearest w j i := h.hard.mp (show j ∈ hardOf ss i by rw [hs]; exact hj)
      rcases hx with rfl | hx
      · exact .single hji
      · exact .tail (TransGen.mono (fun a b hab => h.hard.mp hab) (TransGen.swap hx)) hji
    · intro hx
      cases hx with
      | single h' =>
        refine ⟨x, ?_, .inl rfl⟩
        rw [← hs]; exact h.hard.mpr h'
      | @tail b _ hxb hbi =>
        refine ⟨b, ?_, .inr ?_⟩
        · rw [← hs]; exact h.hard.mpr hbi
        · exact TransGen.mono (fun a b hab => h.hard.mpr hab) (TransGen.swap hxb)

/-- The labels a system wants before it are all there. -/
def MetBefore (w : Workload W ε) (i : Nat) (s : WSys W ε) : Prop :=
  ∀ l ∈ s.reqBefore, ∃ (j : Nat) (t : WSys W ε), w.systems[j]? = some t ∧ Ordered w j i ∧ l ∈ t.tags

theorem Graph.tags {w : Workload W ε} {xs ss : List (Sys W ε)} (h : Graph w xs ss) {j : Nat} {l : Label} (hl : l.user) :
    (∃ y, ss[j]? = some y ∧ l ∈ y.tags) ↔ ∃ t, w.systems[j]? = some t ∧ l ∈ t.tags := by
  constructor
  · rintro ⟨y, hy, hm⟩
    obtain ⟨x, t, _, ht, hp, hsame, _⟩ := h.sys j y hy
    rw [hsame.tags, hp.tags, List.mem_append, List.mem_singleton] at hm
    refine ⟨t, ht, ?_⟩
    rcases hm with hm | rfl
    · exact hm
    · cases hl
  · rintro ⟨t, ht, hm⟩
    have hj : j < ss.length := by rw [h.len]; exact (List.getElem?_eq_some_iff.mp ht).1
    refine ⟨ss[j], List.getElem?_eq_getElem hj, ?_⟩
    obtain ⟨x, t', _, ht', hp, hsame, _⟩ := h.sys j _ (List.getElem?_eq_getElem hj)
    rw [ht] at ht'; cases ht'
    rw [hsame.tags, hp.tags]
    exact List.mem_append_left _ hm

/-- The loop of `check_require_before` stops at the first system with an unmet requirement. -/
theorem requireBefore_ok {w : Workload W ε} (hw : w.Wf) {xs ss : List (Sys W ε)} (h : Graph w xs ss) :
    ∀ (k : Nat), k ≤ ss.length →
    (checkRequireBefore ss (ss.drop k) = .ok () ∧ ∀ (i : Nat) s, k ≤ i → w.systems[i]? = some s → MetBefore w i s)
    ∨ (∃ (i : Nat) (s : WSys W ε) (labels : List Label), k ≤ i ∧ w.systems[i]? = some s ∧
        checkRequireBefore ss (ss.drop k) = .error (.err (.missingBefore s.name labels)) ∧ labels ≠ [] ∧
        ∀ l, l ∈ labels ↔ l ∈ s.reqBefore ∧
          ¬ ∃ (j : Nat) (t : WSys W ε), w.systems[j]? = some t ∧ Ordered w j i ∧ l ∈ t.tags) := by
  intro k hk
  generalize hd : ss.length - k = d
  induction d generalizing k with
  | zero =>
    left
    have hk' : k = ss.length := by omega
    subst hk'
    rw [List.drop_length]
    refine ⟨rfl, ?_⟩
    intro i s hi hs
    have := (List.getElem?_eq_some_iff.mp hs).1
    have := h.len
    omega
  | succ d ih =>
    have hkl : k < ss.length := by omega
    have hks : ss[k]? = some ss[k] := List.getElem?_eq_getElem hkl
    obtain ⟨x, s, hx, hs, hp, hsame, hh, _⟩ := h.sys k _ hks
    obtain ⟨ids, e, hm⟩ := before_set h hks
    have hreq : ss[k].reqBefore = s.reqBefore := by rw [hsame.reqBefore, hp.reqBefore]
    have hname : ss[k].name = s.name := by rw [hsame.name, hp.name]
    have hmem : ∀ l, l.user → ((∃ y ∈ pick ss ids, l ∈ y.tags) ↔
        ∃ (j : Nat) (t : WSys W ε), w.systems[j]? = some t ∧ Ordered w j k ∧ l ∈ t.tags) := by
      intro l hl
      constructor
      · rintro ⟨y, hy, hly⟩
        obtain ⟨j, hj, hjy⟩ := (mem_pick _ _ _).mp hy
        obtain ⟨t, ht, hlt⟩ := (h.tags hl).mp ⟨y, hjy, hly⟩
        exact ⟨j, t, ht, (hm j).mp hj, hlt⟩
      · rintro ⟨j, t, ht, ho, hlt⟩
        obtain ⟨y, hy, hly⟩ := (h.tags hl).mpr ⟨t, ht, hlt⟩
        exact ⟨y, (mem_pick _ _ _).mpr ⟨j, (hm j).mpr ho, hy⟩, hly⟩
    have huser := (hw.sys k s hs).2.reqBefore
    have step : checkRequireBefore ss (ss.drop k) =
        (if (unmet ss[k].reqBefore (pick ss ids)).isEmpty then checkRequireBefore ss (ss.drop (k + 1))
         else .error (.err (.missingBefore ss[k].name (unmet ss[k].reqBefore (pick ss ids))))) := by
      rw [List.drop_eq_getElem_cons hkl]
      show (ss[k].hardAfter.foldlM (addBefore ss ss.length) []).bind _ = _
      rw [e]
      rfl
    cases hemp : (unmet ss[k].reqBefore (pick ss ids)).isEmpty with
    | true =>
      have hmet : MetBefore w k s := by
        intro l hl
        have := (isEmpty_unmet _ _).mp hemp l (by rw [hreq]; exact hl)
        exact (hmem l (huser l hl)).mp this
      rw [step, hemp, if_pos rfl]
      rcases ih (k + 1) (by omega) (by omega) with ⟨h1, h2⟩ | ⟨i, t, labels, hi, ht, h1, h2, h3⟩
      · left
        refine ⟨h1, ?_⟩
        intro i t hi ht
        by_cases hik : i = k
        · subst hik
          rw [hs] at ht; cases ht
          exact hmet
        · exact h2 i t (by omega) ht
      · right
        exact ⟨i, t, labels, by omega, ht, h1, h2, h3⟩
    | false =>
      right
      rw [step, hemp, if_neg (by simp)]
      refine ⟨k, s, unmet ss[k].reqBefore (pick ss ids), Nat.le_refl _, hs, by rw [hname], ?_, ?_⟩
      · intro h0
        rw [h0] at hemp
        cases hemp
      · intro l
        rw [mem_unmet, hreq]
        constructor
        · rintro ⟨h1, h2⟩
          refine ⟨h1, ?_⟩
          intro h3
          obtain ⟨y, hy, hly⟩ := (hmem l (huser l h1)).mpr h3
          exact h2 y hy hly
        · rintro ⟨h1, h2⟩
          refine ⟨h1, ?_⟩
          intro y hy hly
          exact h2 ((hmem l (huser l h1)).mp ⟨y, hy, hly⟩)

/-! ## `check_require_after` -/

theorem mem_directlyAfter {w : Workload W ε} {xs ss : List (Sys W ε)} (h : Graph w xs ss) {i j : Nat} :
    Child (directlyAfter ss) i j ↔ Explicit w i j ∨ Nearest w i j := by
  unfold Child directlyAfter
  rw [List.mem_filter, List.mem_range, Bool.and_eq_true, decide_eq_true_eq]
  constructor
  · rintro ⟨hj, hne, hm⟩
    refine h.hard.mp ?_
    unfold Child hardOf
    rw [List.getElem?_eq_getElem hj] at hm ⊢
    simpa using hm
  · intro hij
    have hj : j < ss.length ∧ i ≠ j := by
      rw [h.len]
      rcases hij with h' | h'
      · exact (explicit_lt h').2
      · have := implicit_lt (nearest_implicit h')
        have := (nearest_implicit h').1
        exact ⟨by omega, by omega⟩
    refine ⟨hj.1, hj.2, ?_⟩
    have := h.hard.mpr hij
    unfold Child hardOf at this
    rw [List.getElem?_eq_getElem hj.1] at this ⊢
    simpa using this

theorem directlyAfter_lt (ss : List (Sys W ε)) : ∀ i, i < ss.length → ∀ j ∈ directlyAfter ss i, j < ss.length := by
  intro i _ j hj
  unfold directlyAfter at hj
  exact List.mem_range.mp (List.mem_filter.mp hj).1

theorem addAfter_dfs (ss : List (Sys W ε)) (fuel : Nat) : ∀ (seen : List Nat) (i : Nat),
    addAfter ss fuel seen i = dfs (directlyAfter ss) fuel seen i := by
  induction fuel with
  | zero => intro seen i; unfold addAfter dfs; rfl
  | succ f ih =>
    intro seen i
    unfold addAfter dfs
    by_cases hm : i ∈ seen
    · rw [if_pos hm, if_pos hm]
    · rw [if_neg hm, if_neg hm]
      exact foldlM_congr _ (fun s j _ => ih s j) _

/-- What `check_require_after` accepts as "after `i`": a system ordered after it, and, because the search starts from
`i` itself, `i` when anything is after it. -/
def AfterOrSelf (w : Workload W ε) (i j : Nat) : Prop := Ordered w i j ∨ (j = i ∧ ∃ k, Ordered w i k)

theorem after_set {w : Workload W ε} {xs ss : List (Sys W ε)} (h : Graph w xs ss) {i : Nat} (hi : i < ss.length) :
    ∃ ids, (directlyAfter ss i).foldlM (fun seen _ => addAfter ss ss.length seen i) [] = .ok ids
      ∧ ∀ x, x ∈ ids ↔ AfterOrSelf w i x := by
  have hord : ∀ {a b}, TransGen (Child (directlyAfter ss)) a b ↔ Ordered w a b := by
    intro a b
    exact ⟨TransGen.mono fun _ _ h' => (mem_directlyAfter h).mp h', TransGen.mono fun _ _ h' => (mem_directlyAfter h).mpr h'⟩
  have hfirst : ∀ k, Ordered w i k → ∃ c, c ∈ directlyAfter ss i := by
    intro k hk
    have := hord.mpr hk
    induction this with
    | single h' => exact ⟨_, h'⟩
    | tail _ _ ih => exact ih (hord.mp (by assumption))
  cases hda : directlyAfter ss i with
  | nil =>
    refine ⟨[], rfl, ?_⟩
    intro x
    simp only [List.not_mem_nil, false_iff]
    rintro (h' | ⟨_, k, h'⟩)
    · obtain ⟨c, hc⟩ := hfirst x h'
      rw [hda] at hc; cases hc
    · obtain ⟨c, hc⟩ := hfirst k h'
      rw [hda] at hc; cases hc
  | cons c rest =>
    obtain ⟨s, e, xp, m, r⟩ := dfs_ok (directlyAfter ss) ss.length (directlyAfter_lt ss) ss.length [] i hi
      (fun x hx => by cases hx) (fresh_le _ _)
    refine ⟨s, ?_, ?_⟩
    · rw [List.foldlM_cons, addAfter_dfs, e]
      show List.foldlM _ s rest = _
      clear hda
      induction rest with
      | nil => rfl
      | cons d rest ih =>
        rw [List.foldlM_cons]
        have : addAfter ss ss.length s i = .ok s := by
          unfold addAfter
          rw [if_pos m]
        rw [this]
        exact ih
    · intro x
      have hci : Ordered w i c := hord.mp (.single (show c ∈ directlyAfter ss i by rw [hda]; simp))
      constructor
      · intro hx
        rcases r x hx with h' | h' | h'
        · cases h'
        · exact .inr ⟨h', c, hci⟩
        · exact .inl (hord.mp h')
      · rintro (h' | ⟨rfl, _⟩)
        · have := hord.mpr h'
          clear h'
          induction this with
          | single h => exact xp.closed _ m (by simp) _ h
          | tail _ h ih => exact xp.closed _ ih (by simp) _ h
        · exact m

def MetAfter (w : Workload W ε) (i : Nat) (s : WSys W ε) : Prop :=
  ∀ l ∈ s.reqAfter, ∃ (j : Nat) (t : WSys W ε), w.systems[j]? = some t ∧ AfterOrSelf w i j ∧ l ∈ t.tags

theorem requireAfter_ok {w : Workload W ε} (hw : w.Wf) {xs ss : List (Sys W ε)} (h : Graph w xs ss) :
    ∀ (k : Nat), k ≤ ss.length →
    (checkRequireAfter ss k (ss.drop k) = .ok () ∧ ∀ (i : Nat) s, k ≤ i → w.systems[i]? = some s → MetAfter w i s)
    ∨ (∃ (i : Nat) (s : WSys W ε) (labels : List Label), k ≤ i ∧ w.systems[i]? = some s ∧
        checkRequireAfter ss k (ss.drop k) = .error (.err (.missingAfter s.name labels)) ∧ labels ≠ [] ∧
        ∀ l, l ∈ labels ↔ l ∈ s.reqAfter ∧
          ¬ ∃ (j : Nat) (t : WSys W ε), w.systems[j]? = some t ∧ AfterOrSelf w i j ∧ l ∈ t.tags) := by
  intro k hk
  generalize hd : ss.length - k = d
  induction d generalizing k with
  | zero =>
    left
    have hk' : k = ss.length := by omega
    subst hk'
    rw [List.drop_length]
    refine ⟨rfl, ?_⟩
    intro i s hi hs
    have := (List.getElem?_eq_some_iff.mp hs).1
    have := h.len
    omega
  | succ d ih =>
    have hkl : k < ss.length := by omega
    have hks : ss[k]? = some ss[k] := List.getElem?_eq_getElem hkl
    obtain ⟨x, s, hx, hs, hp, hsame, hh, _⟩ := h.sys k _ hks
    obtain ⟨ids, e, hm⟩ := after_set h hkl
    have hreq : ss[k].reqAfter = s.reqAfter := by rw [hsame.reqAfter, hp.reqAfter]
    have hname : ss[k].name = s.name := by rw [hsame.name, hp.name]
    have hmem : ∀ l, l.user → ((∃ y ∈ pick ss ids, l ∈ y.tags) ↔
        ∃ (j : Nat) (t : WSys W ε), w.systems[j]? = some t ∧ AfterOrSelf w k j ∧ l ∈ t.tags) := by
      intro l hl
      constructor
      · rintro ⟨y, hy, hly⟩
        obtain ⟨j, hj, hjy⟩ := (mem_pick _ _ _).mp hy
        obtain ⟨t, ht, hlt⟩ := (h.tags hl).mp ⟨y, hjy, hly⟩
        exact ⟨j, t, ht, (hm j).mp hj, hlt⟩
      · rintro ⟨j, t, ht, ho, hlt⟩
        obtain ⟨y, hy, hly⟩ := (h.tags hl).mpr ⟨t, ht, hlt⟩
        exact ⟨y, (mem_pick _ _ _).mpr ⟨j, (hm j).mpr ho, hy⟩, hly⟩
    have huser := (hw.sys k s hs).2.reqAfter
    have step : checkRequireAfter ss k (ss.drop k) =
        (if (unmet ss[k].reqAfter (pick ss ids)).isEmpty then checkRequireAfter ss (k + 1) (ss.drop (k + 1))
         else .error (.err (.missingAfter ss[k].name (unmet ss[k].reqAfter (pick ss ids))))) := by
      rw [List.drop_eq_getElem_cons hkl]
      show ((directlyAfter ss k).foldlM (fun seen _ => addAfter ss ss.length seen k) []).bind _ = _
      rw [e]
      rfl
    cases hemp : (unmet ss[k].reqAfter (pick ss ids)).isEmpty with
    | true =>
      have hmet : MetAfter w k s := by
        intro l hl
        have := (isEmpty_unmet _ _).mp hemp l (by rw [hreq]; exact hl)
        exact (hmem l (huser l hl)).mp this
      rw [step, hemp, if_pos rfl]
      rcases ih (k + 1) (by omega) (by omega) with ⟨h1, h2⟩ | ⟨i, t, labels, hi, ht, h1, h2, h3⟩
      · left
        refine ⟨h1, ?_⟩
        intro i t hi ht
        by_cases hik : i = k
        · subst hik
          rw [hs] at ht; cases ht
          exact hmet
        · exact h2 i t (by omega) ht
      · right
        exact ⟨i, t, labels, by omega, ht, h1, h2, h3⟩
    | false =>
      right
      rw [step, hemp, if_neg (by simp)]
      refine ⟨k, s, unmet ss[k].reqAfter (pick ss ids), Nat.le_refl _, hs, by rw [hname], ?_, ?_⟩
      · intro h0
        rw [h0] at hemp
        cases hemp
      · intro l
        rw [mem_unmet, hreq]
        constructor
        · rintro ⟨h1, h2⟩
          refine ⟨h1, ?_⟩
          intro h3
          obtain ⟨y, hy, hly⟩ := (hmem l (huser l h1)).mpr h3
          exact h2 y hy hly
        · rintro ⟨h1, h2⟩
          refine ⟨h1, ?_⟩
          intro y hy hly
          exact h2 ((hmem l (huser l h1)).mp ⟨y, hy, hly⟩)

/-! ## `check_require_in_workload` -/

def MetIn (w : Workload W ε) (s : WSys W ε) : Prop :=
  ∀ l ∈ s.reqIn, ∃ t ∈ w.systems, l ∈ t.tags

theorem Link.tags {w : Workload W ε} {xs : List (Sys W ε)} (h : Link w xs) {l : Label} (hl : l.user) :
    (∃ y ∈ xs, l ∈ y.tags) ↔ ∃ t ∈ w.systems, l ∈ t.tags := by
  constructor
  · rintro ⟨y, hy, hm⟩
    obtain ⟨j, hj⟩ := List.mem_iff_getElem?.mp hy
    obtain ⟨t, ht, hp⟩ := h.sys j y hj
    rw [hp.tags, List.mem_append, List.mem_singleton] at hm
    refine ⟨t, List.mem_of_getElem? ht, ?_⟩
    rcases hm with hm | rfl
    · exact hm
    · cases hl
  · rintro ⟨t, ht, hm⟩
    obtain ⟨j, hj⟩ := List.mem_iff_getElem?.mp ht
    obtain ⟨y, hy, hp⟩ := h.fwd hj
    refine ⟨y, List.mem_of_getElem? hy, ?_⟩
    rw [hp.tags]
    exact List.mem_append_left _ hm

theorem requireIn_ok {w : Workload W ε} (hw : w.Wf) {xs : List (Sys W ε)} (h : Link w xs) :
    ∀ (k : Nat), k ≤ xs.length →
    (checkRequireIn xs (xs.drop k) = .ok () ∧ ∀ (i : Nat) s, k ≤ i → w.systems[i]? = some s → MetIn w s)
    ∨ (∃ (i : Nat) (s : WSys W ε) (labels : List Label), k ≤ i ∧ w.systems[i]? = some s ∧
        checkRequireIn xs (xs.drop k) = .error (.err (.missingInWorkload s.name labels)) ∧ labels ≠ [] ∧
        ∀ l, l ∈ labels ↔ l ∈ s.reqIn ∧ ¬ ∃ t ∈ w.systems, l ∈ t.tags) := by
  intro k hk
  generalize hd : xs.length - k = d
  induction d generalizing k with
  | zero =>
    left
    have hk' : k = xs.length := by omega
    subst hk'
    rw [List.drop_length]
    refine ⟨rfl, ?_⟩
    intro i s hi hs
    have := (List.getElem?_eq_some_iff.mp hs).1
    have := h.len
    omega
  | succ d ih =>
    have hkl : k < xs.length := by omega
    obtain ⟨s, hs, hp⟩ := h.sys k _ (List.getElem?_eq_getElem hkl)
    have huser := (hw.sys k s hs).2.reqIn
    have step : checkRequireIn xs (xs.drop k) =
        (if (unmet xs[k].reqIn xs).isEmpty then checkRequireIn xs (xs.drop (k + 1))
         else .error (.err (.missingInWorkload xs[k].name (unmet xs[k].reqIn xs)))) := by
      rw [List.drop_eq_getElem_cons hkl]
      rfl
    cases hemp : (unmet xs[k].reqIn xs).isEmpty with
    | true =>
      have hmet : MetIn w s := by
        intro l hl
        have := (isEmpty_unmet _ _).mp hemp l (by rw [hp.reqIn]; exact hl)
        exact (h.tags (huser l hl)).mp this
      rw [step, hemp, if_pos rfl]
      rcases ih (k + 1) (by omega) (by omega) with ⟨h1, h2⟩ | ⟨i, t, labels, hi, ht, h1, h2, h3⟩
      · left
        refine ⟨h1, ?_⟩
        intro i t hi ht
        by_cases hik : i = k
        · subst hik
          rw [hs] at ht; cases ht
          exact hmet
        · exact h2 i t (by omega) ht
      · right
        exact ⟨i, t, labels, by omega, ht, h1, h2, h3⟩
    | false =>
      right
      rw [step, hemp, if_neg (by simp)]
      refine ⟨k, s, unmet xs[k].reqIn xs, Nat.le_refl _, hs, by rw [hp.name], ?_, ?_⟩
      · intro h0
        rw [h0] at hemp
        cases hemp
      · intro l
        rw [mem_unmet, hp.reqIn]
        constructor
        · rintro ⟨h1, h2⟩
          refine ⟨h1, ?_⟩
          intro h3
          obtain ⟨y, hy, hly⟩ := (h.tags (huser l h1)).mpr h3
          exact h2 y hy hly
        · rintro ⟨h1, h2⟩
          refine ⟨h1, ?_⟩
          intro y hy hly
          exact h2 ((h.tags (huser l h1)).mp ⟨y, hy, hly⟩)

end Verif.Sched
