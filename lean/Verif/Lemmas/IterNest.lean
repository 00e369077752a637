import Verif.Spec.IterNest
import Verif.Lemmas.SailTime
import Verif.Lemmas.IterWalk

/-! # Lemmas: `World::iter` with tuples in tuples -/
namespace Verif.IterSpec
open StoSpec TrkSpec Iter
variable {V : Type}

theorem wItems_eq (st : Win V → Sto V) (e : EId) : ∀ l, wItems st e l = allOf (l.map fun q => wItem st e q)
  | [] => by simp only [wItems, List.map_nil, allOf]
  | q :: l => by simp only [wItems, List.map_cons, allOf, wItems_eq st e l]

/-- The windows of `World::iter` find `e` where the views do. -/
def Fits (vs : List (Tracking.View V)) (e : EId) : Prop :=
  Valid e ∧ ∀ v ∈ vs, (Win.ofOwned v).indexOf e = (Win.ofView v).indexOf e

mutual
/-- The shape of the shiperator of an argument, whatever the masks. -/
def WOf (s : Ship V) : WQ V → Prop
  | .one v => s = .view (Win.ofOwned v)
  | .tup l => ∃ ls m, s = .mixed ls m ∧ WOfs ls l
def WOfs (ls : List (Ship V)) : List (WQ V) → Prop
  | [] => ls = []
  | q :: l => ∃ s ls', ls = s :: ls' ∧ WOf s q ∧ WOfs ls' l
end

mutual
theorem wof_unpick : ∀ (q : WQ V) (s : Ship V), WOf s q → WOf s.unpick q
  | .one v, s, h => by
    simp only [WOf] at h ⊢
    subst h
    simp only [Ship.unpick]
  | .tup l, s, h => by
    simp only [WOf] at h ⊢
    obtain ⟨ls, m, rfl, h⟩ := h
    exact ⟨Ship.unpicks ls, none, by simp only [Ship.unpick], wofs_unpick l ls h⟩
theorem wofs_unpick : ∀ (l : List (WQ V)) (ls : List (Ship V)), WOfs ls l → WOfs (Ship.unpicks ls) l
  | [], ls, h => by
    simp only [WOfs] at h ⊢
    subst h
    simp only [Ship.unpicks]
  | q :: l, ls, h => by
    simp only [WOfs] at h ⊢
    obtain ⟨s, ls', rfl, h1, h2⟩ := h
    exact ⟨s.unpick, Ship.unpicks ls', by simp only [Ship.unpicks], wof_unpick q s h1, wofs_unpick l ls' h2⟩
end

/-- One view. -/
theorem wsees_one {st : Win V → Sto V} {v : Tracking.View V} (hr : Reads (Win.ofView v) (st (Win.ofView v))) {e : EId}
    (hv : Valid e) (hf : (Win.ofOwned v).indexOf e = (Win.ofView v).indexOf e) (i : Nat) :
    Sees (.view (Win.ofOwned v)) e i (wItem st e (.one v)) := by
  obtain ⟨L, hL⟩ := hr.looks
  rw [show wItem st e (.one v) = (lookup (st (Win.ofView v)).rows e).map .comp by simp only [wItem]]
  have hrow : ∀ a : Sto V, (rowAt a e).map (·.val) = lookup a.rows e := by
    intro a
    unfold rowAt lookup
    cases a.rows e.idx with
    | none => rfl
    | some row =>
      simp only [Option.bind_some]
      split <;> rfl
  rcases hL.find e hv with ⟨h1, h2⟩ | ⟨j, c, hj, hc, h2⟩
  · left
    rw [← hrow, h1]
    simp only [Ship.indicesOf, hf, h2]
    exact ⟨rfl, rfl⟩
  · right
    refine ⟨.at j, .comp c.val, ?_, ?_, ?_⟩
    · rw [← hrow, ← hc, hL.row j c hj]; rfl
    · simp only [Ship.indicesOf, hf, h2]; rfl
    · have : (Win.ofOwned v).data j = .ok c.val := hL.data j c hj
      simp only [Ship.sailorData, this]; rfl

mutual
/-- Asked, an argument that does not drive answers right. -/
theorem wsees {st : Win V → Sto V} {e : EId} (i : Nat) : ∀ (q : WQ V) (s : Ship V),
    (∀ v ∈ viewsOf q, Reads (Win.ofView v) (st (Win.ofView v))) → Fits (viewsOf q) e → WOf s q →
    Sees s.unpick e i (wItem st e q)
  | .one v, s, hr, hf, h => by
    simp only [WOf] at h
    subst h
    simp only [Ship.unpick]
    simp only [viewsOf] at hr hf
    exact wsees_one (hr v (by simp)) hf.1 (hf.2 v (by simp)) i
  | .tup l, s, hr, hf, h => by
    simp only [WOf] at h
    obtain ⟨ls, m, rfl, h⟩ := h
    simp only [viewsOf] at hr hf
    simp only [Ship.unpick]
    rw [show wItem st e (.tup l) = (wItems st e l).map .tup by simp only [wItem], wItems_eq]
    exact sees_mixed (wseess i l ls 0 hr hf h)
theorem wseess {st : Win V → Sto V} {e : EId} (i : Nat) : ∀ (l : List (WQ V)) (ls : List (Ship V)) (j : Nat),
    (∀ v ∈ viewsOfs l, Reads (Win.ofView v) (st (Win.ofView v))) → Fits (viewsOfs l) e → WOfs ls l →
    SeesL none e i j (Ship.unpicks ls) (l.map fun q => wItem st e q)
  | [], ls, j, _, _, h => by
    simp only [WOfs] at h
    subst h
    simp only [Ship.unpicks, List.map_nil]
    exact .nil
  | q :: l, ls, j, hr, hf, h => by
    simp only [WOfs] at h
    obtain ⟨s, ls', rfl, h1, h2⟩ := h
    simp only [viewsOfs] at hr hf
    simp only [Ship.unpicks, List.map_cons]
    exact .ask (by simp) (wsees i q s (fun v hv => hr v (by simp [hv])) ⟨hf.1, fun v hv => hf.2 v (by simp [hv])⟩ h1)
      (wseess i l ls' (j + 1) (fun v hv => hr v (by simp [hv])) ⟨hf.1, fun v hv => hf.2 v (by simp [hv])⟩ h2)
end

mutual
/-- The announced steps: at most 2^48 per view, with the arithmetic of the code. -/
theorem wsail {st : Win V → Sto V} : ∀ (q : WQ V) (s : Ship V),
    (∀ v ∈ viewsOf q, Reads (Win.ofView v) (st (Win.ofView v))) → (viewsOf q).length ≤ 2 ^ 13 → WOf s q →
    s.sailTime f32 ≤ (viewsOf q).length * 2 ^ 48 ∧ s.sailOver f32 = false
  | .one v, s, hr, hl, h => by
    simp only [WOf] at h
    subst h
    simp only [viewsOf] at hr ⊢
    refine ⟨?_, by simp only [Ship.sailOver]⟩
    simp only [Ship.sailTime]
    exact (hr v (by simp)).lt48
  | .tup l, s, hr, hl, h => by
    simp only [WOf] at h
    obtain ⟨ls, m, rfl, h⟩ := h
    simp only [viewsOf] at hr hl ⊢
    obtain ⟨h1, h2⟩ := wsails l ls m 0 hr hl h
    refine ⟨by simpa only [Ship.sailTime] using h1, ?_⟩
    simp only [Ship.sailOver, h2, Bool.false_or, decide_eq_false_iff_not]
    have : Ship.sailTimes f32 ls m 0 < usizeMax := leaf_le (n := (viewsOfs l).length)
      (Nat.le_trans h1 (Nat.mul_le_mul_left _ (by decide))) hl
    omega
theorem wsails {st : Win V → Sto V} : ∀ (l : List (WQ V)) (ls : List (Ship V)) (m : Option Nat) (i : Nat),
    (∀ v ∈ viewsOfs l, Reads (Win.ofView v) (st (Win.ofView v))) → (viewsOfs l).length ≤ 2 ^ 13 → WOfs ls l →
    Ship.sailTimes f32 ls m i ≤ (viewsOfs l).length * 2 ^ 48 ∧ Ship.sailOvers f32 ls = false
  | [], ls, m, i, _, _, h => by
    simp only [WOfs] at h
    subst h
    simp only [Ship.sailTimes, Ship.sailOvers]
    exact ⟨Nat.zero_le _, trivial⟩
  | q :: l, ls, m, i, hr, hl, h => by
    simp only [WOfs] at h
    obtain ⟨s, ls', rfl, h1, h2⟩ := h
    simp only [viewsOfs] at hr hl ⊢
    rw [List.length_append] at hl ⊢
    obtain ⟨a1, a2⟩ := wsail q s (fun v hv => hr v (by simp [hv])) (by omega) h1
    obtain ⟨b1, b2⟩ := wsails l ls' m (i + 1) (fun v hv => hr v (by simp [hv])) (by omega) h2
    simp only [Ship.sailTimes, Ship.sailOvers, a2, b2, Bool.or_false]
    refine ⟨?_, trivial⟩
    rw [Nat.add_mul]
    refine Nat.add_le_add ?_ b1
    split
    · exact f32_same_le (by omega) a1
    · exact f32_half_le (by omega) a1
end

theorem fewest_none (r : Rnd) : ∀ (l : List (Ship V)) (i : Nat) (best : Option Nat) (least : Nat),
    (∀ s ∈ l, ¬ s.sailTime r < least) → WQ.fewest r l i best least = best
  | [], _, _, _, _ => rfl
  | s :: l, i, best, least, h => by
    simp only [WQ.fewest]
    rw [if_neg (h s (by simp))]
    exact fewest_none r l _ _ _ fun s' hs => h s' (by simp [hs])

theorem fewest_some (r : Rnd) : ∀ (l : List (Ship V)) (i : Nat) (best : Option Nat) (least : Nat),
    (∃ s ∈ l, s.sailTime r < least) → ∃ t, t < l.length ∧ WQ.fewest r l i best least = some (i + t)
  | [], _, _, _, h => by obtain ⟨s, hs, _⟩ := h; cases hs
  | s :: l, i, best, least, h => by
    simp only [WQ.fewest]
    by_cases hlt : s.sailTime r < least
    · rw [if_pos hlt]
      by_cases hl : ∃ s' ∈ l, s'.sailTime r < s.sailTime r
      · obtain ⟨t, h1, h2⟩ := fewest_some r l (i + 1) (some i) _ hl
        exact ⟨t + 1, by simpa using h1, by rw [h2]; congr 1; omega⟩
      · exact ⟨0, by simp, by rw [fewest_none r _ _ _ _ fun s' hs hh => hl ⟨s', hs, hh⟩]; rfl⟩
    · rw [if_neg hlt]
      obtain ⟨s', hs, hh⟩ := h
      rcases List.mem_cons.1 hs with rfl | hs
      · exact absurd hh hlt
      · obtain ⟨t, h1, h2⟩ := fewest_some r l (i + 1) best _ ⟨s', hs, hh⟩
        exact ⟨t + 1, by simpa using h1, by rw [h2]; congr 1; omega⟩

/-- The shiperator, its length and the ids of an argument that can drive. -/
structure WBuilt (st : Win V → Sto V) (q : WQ V) (x : Ship V × Nat × Acc) (S : List EId) : Prop where
  shape : WOf x.1 q
  len : x.2.1 = S.length
  acc : x.2.2 = ⟨S, []⟩
  phase : Phase x.1 (S, fun e => wItem st e q)
  all : ∀ e o, wItem st e q = some o → e ∈ S

theorem wofs_but (k : Nat) : ∀ (l : List (WQ V)) (ls : List (Ship V)) (j : Nat), WOfs ls l → WOfs (Qry.unpickBut (some k) j ls) l
  | [], ls, j, h => by
    simp only [WOfs] at h ⊢
    subst h
    simp only [Qry.unpickBut]
  | q :: l, ls, j, h => by
    simp only [WOfs] at h ⊢
    obtain ⟨s, ls', rfl, h1, h2⟩ := h
    refine ⟨_, _, rfl, ?_, wofs_but k l ls' (j + 1) h2⟩
    split
    · exact h1
    · exact wof_unpick q s h1

theorem wseesL {st : Win V → Sto V} {e : EId} {i k : Nat} {m : Option Nat} (hm : m = none ∨ m = some k) :
    ∀ (l : List (WQ V)) (ls : List (Ship V)) (j : Nat), WOfs ls l →
    (∀ v ∈ viewsOfs l, Reads (Win.ofView v) (st (Win.ofView v))) → Fits (viewsOfs l) e →
    (∀ (t : Nat) s q, ls[t]? = some s → l[t]? = some q → j + t = k →
      Sees s e i (wItem st e q) ∧ (m = some k → ∃ x, wItem st e q = some x ∧ Gives s i x)) →
    SeesL m e i j (Qry.unpickBut (some k) j ls) (l.map fun q => wItem st e q)
  | [], ls, j, h, _, _, _ => by
    simp only [WOfs] at h
    subst h
    exact .nil
  | q :: l, ls, j, h, hr, hf, hk => by
    simp only [WOfs] at h
    obtain ⟨s, ls', rfl, h1, h2⟩ := h
    simp only [viewsOfs] at hr hf
    have ih := wseesL hm l ls' (j + 1) h2 (fun v hv => hr v (by simp [hv])) ⟨hf.1, fun v hv => hf.2 v (by simp [hv])⟩
      (fun t s' q' a b c => hk (t + 1) s' q' a b (by omega))
    simp only [Qry.unpickBut, List.map_cons]
    by_cases hj : k = j
    · subst hj
      rw [if_pos rfl]
      obtain ⟨a1, a2⟩ := hk 0 s q rfl rfl rfl
      rcases hm with hm | hm
      · exact .ask (by rw [hm]; simp) a1 ih
      · obtain ⟨x, hx, hg⟩ := a2 hm
        rw [hx]
        exact .given hm hg ih
    · rw [if_neg (by simpa using hj)]
      refine .ask ?_ (wsees i q s (fun v hv => hr v (by simp [hv])) ⟨hf.1, fun v hv => hf.2 v (by simp [hv])⟩ h1) ih
      rcases hm with hm | hm
      · rw [hm]; simp
      · rw [hm]; simpa using hj

theorem allOf_get {α : Type} : ∀ {os : List (Option α)} {xs : List α}, allOf os = some xs → ∀ (t : Nat) (o : Option α),
    os[t]? = some o → ∃ x, o = some x
  | [], _, _, t, o, h => by simp at h
  | o' :: os, xs, h, t, o, ht => by
    simp only [allOf] at h
    cases o' with
    | none => cases h
    | some x =>
      cases hr : allOf os with
      | none => rw [hr] at h; cases h
      | some ys =>
        cases t with
        | zero => simp only [List.getElem?_cons_zero, Option.some.injEq] at ht; exact ⟨x, ht.symm⟩
        | succ t => exact allOf_get hr t o (by simpa using ht)

/-- The members of a tuple, built. -/
inductive WBuilts (st : Win V → Sto V) : List (WQ V) → List (Ship V × Nat × Acc) → Prop where
  | nil : WBuilts st [] []
  | cons {q l x xs S} : WBuilt st q x S → WBuilts st l xs → WBuilts st (q :: l) (x :: xs)

theorem WBuilts.shape {st : Win V → Sto V} {l : List (WQ V)} {xs : List (Ship V × Nat × Acc)} (h : WBuilts st l xs) :
    WOfs (xs.map (·.1)) l := by
  induction h with
  | nil => simp only [WOfs, List.map_nil]
  | cons h1 _ ih =>
    simp only [WOfs, List.map_cons]
    exact ⟨_, _, rfl, h1.shape, ih⟩

theorem WBuilts.get {st : Win V → Sto V} {l : List (WQ V)} {xs : List (Ship V × Nat × Acc)} (h : WBuilts st l xs) :
    ∀ (t : Nat) x, xs[t]? = some x → ∃ q S, l[t]? = some q ∧ WBuilt st q x S := by
  induction h with
  | nil => intro t x h; simp at h
  | @cons q l x xs S h1 _ ih =>
    intro t y ht
    cases t with
    | zero => simp only [List.getElem?_cons_zero, Option.some.injEq] at ht; subst ht; exact ⟨q, S, rfl, h1⟩
    | succ t => exact ih t y (by simpa using ht)

theorem WBuilts.length {st : Win V → Sto V} {l : List (WQ V)} {xs : List (Ship V × Nat × Acc)} (h : WBuilts st l xs) :
    xs.length = l.length := by
  induction h with
  | nil => rfl
  | cons _ _ ih => simp [ih]

/-- A tuple, given its members. -/
theorem wbuilt_tup {st : Win V → Sto V} {l : List (WQ V)} (h0 : l ≠ []) {xs : List (Ship V × Nat × Acc)} (hb : WBuilts st l xs)
    (hr : ∀ v ∈ viewsOfs l, Reads (Win.ofView v) (st (Win.ofView v))) (hl : (viewsOfs l).length ≤ 2 ^ 13)
    (hf : ∀ x ∈ xs, ∀ e ∈ x.2.2.slice, Fits (viewsOfs l) e) :
    Ship.sailOvers f32 (xs.map (·.1)) = false ∧
    ∃ S, WBuilt st (.tup l) (Qry.assemble xs (WQ.fewest f32 (xs.map (·.1)) 0 none usizeMax)) S ∧
      ∃ x ∈ xs, S = x.2.2.slice := by
  have hshape := hb.shape
  obtain ⟨s1, s2⟩ := wsails l (xs.map (·.1)) none 0 hr hl hshape
  refine ⟨s2, ?_⟩
  have hex : ∃ s ∈ xs.map (·.1), s.sailTime f32 < usizeMax := by
    cases hb with
    | nil => exact absurd rfl h0
    | @cons q l x xs S h1 h2 =>
      simp only [viewsOfs] at hr hl
      rw [List.length_append] at hl
      obtain ⟨a1, _⟩ := wsail q x.1 (fun v hv => hr v (by simp [hv])) (by omega) h1.shape
      exact ⟨x.1, by simp, leaf_le (n := (viewsOf q).length) (Nat.le_trans a1 (Nat.mul_le_mul_left _ (by decide))) (by omega)⟩
  obtain ⟨k, hk, hp⟩ := fewest_some f32 _ 0 none usizeMax hex
  rw [Nat.zero_add] at hp
  rw [hp]
  have hk' : k < xs.length := by simpa using hk
  have hx := List.getElem?_eq_getElem hk'
  generalize hxk : xs[k] = x at hx
  have hmem : x ∈ xs := by rw [← hxk]; exact List.getElem_mem hk'
  obtain ⟨q, S, hq, hB⟩ := hb.get k x hx
  have hacc : x.2.2.slice = S := by rw [hB.acc]
  have hfS : ∀ e ∈ S, Fits (viewsOfs l) e := fun e he => hf x hmem e (by rw [hacc]; exact he)
  refine ⟨S, ?_, x, hmem, hacc.symm⟩
  have hasm : Qry.assemble xs (some k) =
      (.mixed (Qry.unpickBut (some k) 0 (xs.map (·.1))) (if x.1.isExact then some k else none), x.2.1, x.2.2) := by
    unfold Qry.assemble
    simp only [Option.bind_some, hx]
  rw [hasm]
  have hm : (if x.1.isExact then some k else none) = none ∨ (if x.1.isExact then some k else none) = some k := by
    split
    · exact .inr rfl
    · exact .inl rfl
  have hitem : ∀ e, wItem st e (.tup l) = (allOf (l.map fun q => wItem st e q)).map .tup := by
    intro e
    rw [← wItems_eq]; simp only [wItem]
  have hshk : ∀ (t : Nat) s q', (xs.map (·.1))[t]? = some s → l[t]? = some q' → 0 + t = k → s = x.1 ∧ q' = q := by
    intro t s q' a b c
    have : t = k := by omega
    subst this
    rw [List.getElem?_map, hx] at a
    rw [hq] at b
    exact ⟨by simpa using a.symm, by simpa using b.symm⟩
  refine ⟨?_, hB.len, hB.acc, ⟨hB.phase.nodup, hB.phase.valid, ?_, ?_⟩, ?_⟩
  · simp only [WOf]
    exact ⟨_, _, rfl, wofs_but k l _ 0 hshape⟩
  · intro i e hi
    simp only
    rw [hitem]
    refine sees_mixed (wseesL hm l _ 0 hshape hr (hfS e (List.mem_of_getElem? hi)) ?_)
    intro t s q' a b c
    obtain ⟨rfl, rfl⟩ := hshk t s q' a b c
    refine ⟨hB.phase.sees i e hi, fun hmk => hB.phase.gives ?_ i e hi⟩
    cases hxx : x.1.isExact with
    | true => rfl
    | false => rw [hxx] at hmk; cases hmk
  · intro hexact i e hi
    have hlen : (Qry.unpickBut (some k) 0 (xs.map (·.1))).length = l.length := by
      rw [unpickBut_length, List.length_map, hb.length]
    have hme : ∀ (L : List (Ship V)) (m : Option Nat), (Ship.mixed L m).isExact = ((if m.isSome then 1 else 0) == L.length) :=
      fun _ _ => rfl
    rw [hme, hlen] at hexact
    have hxx : x.1.isExact = true := by
      cases hxx : x.1.isExact with
      | true => rfl
      | false =>
        exfalso
        simp only [hxx, Bool.false_eq_true, if_false, Option.isSome_none, beq_iff_eq] at hexact
        exact h0 (List.length_eq_zero_iff.1 hexact.symm)
    have hl1 : l.length = 1 := by
      simp only [hxx, if_true, Option.isSome_some, beq_iff_eq] at hexact
      exact hexact.symm
    have hk0 : k = 0 := by have := hb.length; omega
    subst hk0
    obtain ⟨q', hl'⟩ := List.length_eq_one_iff.1 hl1
    have hqq : q' = q := by rw [hl'] at hq; simpa using hq
    subst hqq
    have hxs : xs = [x] := by
      have : xs.length = 1 := by rw [hb.length, hl1]
      obtain ⟨y, hy⟩ := List.length_eq_one_iff.1 this
      rw [hy] at hx
      rw [hy]
      simpa using hx
    obtain ⟨o, ho, g1, ix, g2, g3⟩ := hB.phase.gives hxx i e hi
    simp only at ho
    refine ⟨.tup [o], ?_, ?_, .tup [ix], ?_, ?_⟩
    · simp only
      rw [hitem, hl']
      simp only [List.map_cons, List.map_nil, allOf, ho]
      rfl
    · simp only [hxs, List.map_cons, List.map_nil, Qry.unpickBut, if_true, Ship.captainData, Ship.captainDatas, g1, Except.map]
    · simp only [hxs, List.map_cons, List.map_nil, Qry.unpickBut, if_true, Ship.fromUsize, Ship.fromUsizes, g2, Except.map]
    · simp only [hxs, List.map_cons, List.map_nil, Qry.unpickBut, if_true, Ship.sailorData, Ship.sailorDatas, g3, Except.map]
  · intro e o ho
    rw [hitem, Option.map_eq_some_iff] at ho
    obtain ⟨ys, hys, _⟩ := ho
    obtain ⟨y, hy⟩ := allOf_get hys k (wItem st e q) (by rw [List.getElem?_map, hq]; rfl)
    exact hB.all e y hy

theorem wbuilt_one {st : Win V → Sto V} {v : Tracking.View V} (hr : Reads (Win.ofView v) (st (Win.ofView v)))
    (hf : ∀ e ∈ v.set.dense, Fits [v] e) :
    WBuilt st (.one v) (.view (Win.ofOwned v), v.set.dense.length, ⟨v.set.dense, []⟩) v.set.dense := by
  obtain ⟨L, hL⟩ := hr.looks
  have hi : ∀ e, wItem st e (.one v) = item st (.view (Win.ofView v)) e := by
    intro e
    simp only [wItem, item]
    unfold rowAt lookup
    cases (st (Win.ofView v)).rows e.idx with
    | none => rfl
    | some row =>
      simp only [Option.bind_some]
      split <;> rfl
  obtain ⟨p1, p2⟩ := cap_view hr
  have hd : ∀ i, (Win.ofOwned v).data i = (Win.ofView v).data i := fun _ => rfl
  refine ⟨by simp only [WOf], rfl, rfl, ⟨hL.nodup, hL.valid, ?_, ?_⟩, ?_⟩
  · intro i e h
    have := hf e (List.mem_of_getElem? h)
    exact wsees_one hr this.1 (this.2 v (by simp)) i
  · intro _ i e h
    obtain ⟨x, h1, h2, ix, h3, h4⟩ := p1.gives (by simp only [Ship.isExact]) i e h
    refine ⟨x, by simp only at h1 ⊢; rw [hi]; exact h1, ?_, ?_⟩
    · simpa only [Ship.captainData, hd] using h2
    · refine ⟨ix, by simpa only [Ship.fromUsize] using h3, ?_⟩
      cases ix <;> simpa only [Ship.sailorData, hd] using h4
  · intro e o ho
    rw [hi] at ho
    exact p2 e o ho

mutual
theorem wbuilt {st : Win V → Sto V} : ∀ (q : WQ V), Solid q →
    (∀ v ∈ viewsOf q, Reads (Win.ofView v) (st (Win.ofView v))) → (viewsOf q).length ≤ 2 ^ 13 →
    (∀ v ∈ viewsOf q, ∀ e ∈ v.set.dense, Fits (viewsOf q) e) →
    ∃ x S, q.ship f32 = .ok x ∧ WBuilt st q x S ∧ ∃ v ∈ viewsOf q, S = v.set.dense
  | .one v, _, hr, _, hf => by
    simp only [viewsOf] at hr hf
    exact ⟨_, v.set.dense, by simp only [WQ.ship], wbuilt_one (hr v (by simp)) (hf v (by simp)), v, by simp [viewsOf], rfl⟩
  | .tup l, hs, hr, hl, hf => by
    simp only [Solid] at hs
    simp only [viewsOf] at hr hl hf ⊢
    obtain ⟨xs, h1, h2, h3⟩ := wbuilts (viewsOfs l) l hs.2 hr hl (fun _ h => h) hf
    obtain ⟨s1, S, s2, x, hx, hS⟩ := wbuilt_tup hs.1 h2 hr hl (fun x hx e he => by
      obtain ⟨v, hv, hS⟩ := h3 x hx
      rw [hS] at he
      exact hf v hv e he)
    obtain ⟨v, hv, hS'⟩ := h3 x hx
    refine ⟨_, S, ?_, s2, v, hv, hS.trans hS'⟩
    simp only [WQ.ship, h1, s1, Bool.false_eq_true, if_false]
theorem wbuilts {st : Win V → Sto V} (vs : List (Tracking.View V)) : ∀ (l : List (WQ V)), Solids l →
    (∀ v ∈ viewsOfs l, Reads (Win.ofView v) (st (Win.ofView v))) → (viewsOfs l).length ≤ 2 ^ 13 →
    (∀ v ∈ viewsOfs l, v ∈ vs) → (∀ v ∈ vs, ∀ e ∈ v.set.dense, Fits vs e) →
    ∃ xs, WQ.ships f32 l = .ok xs ∧ WBuilts st l xs ∧ ∀ x ∈ xs, ∃ v ∈ viewsOfs l, x.2.2.slice = v.set.dense
  | [], _, _, _, _, _ => ⟨[], by simp only [WQ.ships], .nil, fun x hx => by cases hx⟩
  | q :: l, hs, hr, hl, hv, hf => by
    simp only [Solids] at hs
    simp only [viewsOfs] at hr hl hv ⊢
    rw [List.length_append] at hl
    obtain ⟨x, S, a1, a2, v, a3, a4⟩ := wbuilt q hs.1 (fun v h => hr v (by simp [h])) (by omega)
      (fun v h e he => ⟨(hf v (hv v (by simp [h])) e he).1, fun u hu => (hf v (hv v (by simp [h])) e he).2 u (hv u (by simp [hu]))⟩)
    obtain ⟨xs, b1, b2, b3⟩ := wbuilts vs l hs.2 (fun v h => hr v (by simp [h])) (by omega) (fun v h => hv v (by simp [h])) hf
    refine ⟨x :: xs, by simp only [WQ.ships, a1, b1, Except.map], .cons a2 b2, fun y hy => ?_⟩
    rcases List.mem_cons.1 hy with rfl | hy
    · exact ⟨v, by simp [a3], by rw [a2.acc, a4]⟩
    · obtain ⟨u, hu, he⟩ := b3 y hy
      exact ⟨u, by simp [hu], he⟩
end

end Verif.IterSpec
