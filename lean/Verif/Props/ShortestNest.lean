import Verif.Props.Shortest
import Verif.Spec.Leads

/-!
# C101: joint iteration over nested tuples
-/
namespace Verif.IterSpec
open StoSpec TrkSpec Iter
variable {V : Type}

theorem bundles_get : ∀ {l : List (Qry V)}, bundles l = true → ∀ q ∈ l, bundle q = true
  | [], _, _, h => nomatch h
  | q' :: l, hb, q, hq => by
    simp only [bundles, Bool.and_eq_true] at hb
    rcases List.mem_cons.1 hq with rfl | h
    · exact hb.1
    · exact bundles_get hb.2 q h

mutual
theorem bundle_sailor : ∀ (q : Qry V), bundle q = true → q.canSailor = true
  | .view _, _ | .opt _, _ | .absent _ _, _ | .flag _ _ _, _ => by simp only [Qry.canSailor]
  | .ids _, h | .or _ _, h => by simp [bundle] at h
  | .tup l, h => by
    simp only [bundle] at h
    simp only [Qry.canSailor]
    exact bundles_sailor l h
theorem bundles_sailor : ∀ (l : List (Qry V)), bundles l = true → Qry.canSailors l = true
  | [], _ => by simp only [Qry.canSailors]
  | q :: l, h => by
    simp only [bundles, Bool.and_eq_true] at h
    simp only [Qry.canSailors, Bool.and_eq_true]
    exact ⟨bundle_sailor q h.1, bundles_sailor l h.2⟩
end

mutual
theorem bundle_orFree : ∀ (q : Qry V), bundle q = true → orFree q = true
  | .view _, _ | .opt _, _ | .absent _ _, _ | .flag _ _ _, _ => by simp only [orFree]
  | .ids _, h | .or _ _, h => by simp [bundle] at h
  | .tup l, h => by
    simp only [bundle] at h
    simp only [orFree]
    exact bundles_orFree l h
theorem bundles_orFree : ∀ (l : List (Qry V)), bundles l = true → orFrees l = true
  | [], _ => by simp only [orFrees]
  | q :: l, h => by
    simp only [bundles, Bool.and_eq_true] at h
    simp only [orFrees, Bool.and_eq_true]
    exact ⟨bundle_orFree q h.1, bundles_orFree l h.2⟩
end

/-- The sum from a position on. -/
def billFrom (r : Rnd) (whole : Option Nat) (i : Nat) (cs : List Nat) : Nat :=
  ((cs.zipIdx i).map fun x => if whole = some x.2 then r.same x.1 else r.half x.1).sum

theorem billFrom_cons (r : Rnd) (m : Option Nat) (i c : Nat) (cs : List Nat) :
    billFrom r m i (c :: cs) = (if m = some i then r.same c else r.half c) + billFrom r m (i + 1) cs := by
  simp [billFrom, List.zipIdx_cons]

theorem sailTimes_bill (r : Rnd) (m : Option Nat) : ∀ (ss : List (Ship V)) (i : Nat),
    Ship.sailTimes r ss m i = billFrom r m i (ss.map (·.sailTime r))
  | [], i => by simp [Ship.sailTimes, billFrom]
  | s :: ss, i => by
    simp only [Ship.sailTimes, List.map_cons, billFrom_cons, sailTimes_bill r m ss (i + 1)]

mutual
theorem unpick_twice (r : Rnd) : ∀ (s : Ship V), s.unpick.unpick.sailTime r = s.unpick.sailTime r
  | .view _ | .ids _ | .opt _ | .absent _ _ | .flag _ _ _ => by simp only [Ship.unpick]
  | .or a b _ _ => by simp only [Ship.unpick, Ship.sailTime, unpick_twice r a, unpick_twice r b]
  | .mixed l m => by
    simp only [Ship.unpick, Ship.sailTime, sailTimes_bill, unpicks_twice r l]
theorem unpicks_twice (r : Rnd) : ∀ (l : List (Ship V)),
    (Ship.unpicks (Ship.unpicks l)).map (·.sailTime r) = (Ship.unpicks l).map (·.sailTime r)
  | [] => by simp only [Ship.unpicks]
  | s :: l => by
    simp only [Ship.unpicks, List.map_cons, unpick_twice r s, unpicks_twice r l]
end

theorem unpicks_map : ∀ (l : List (Ship V)), Ship.unpicks l = l.map (·.unpick)
  | [] => by simp only [Ship.unpicks, List.map_nil]
  | s :: l => by simp only [Ship.unpicks, List.map_cons, unpicks_map l]

theorem canCaptains_of_mem : ∀ {l : List (Qry V)} {q : Qry V}, q ∈ l → q.canCaptain = true → Qry.canCaptains l = true
  | q' :: l, q, hq, hc => by
    simp only [Qry.canCaptains, Bool.or_eq_true]
    rcases List.mem_cons.1 hq with rfl | h
    · exact .inl hc
    · exact .inr (canCaptains_of_mem h hc)

/-- The iterator that is built for `q`, and what it announces. -/
def Lead (r : Rnd) (q : Qry V) (x : Ship V × Nat × Acc) (d : Option (Win V)) : Prop :=
  q.intoShip r = .ok x ∧ Leads r q (x.1.sailTime r) (x.1.unpick.sailTime r) d ∧ x.1.isExact = onlyView q ∧
    (d = none → q.canCaptain = false) ∧
    ∀ w, d = some w → q.canCaptain = true ∧ x.2 = (w.set.dense.length, ⟨w.set.dense, []⟩)

theorem lead_tup {r : Rnd} {st : Win V → Sto V} {l : List (Qry V)} (h2 : 2 ≤ l.length) (hb : bundles l = true)
    (hf : Fine st (.tup l)) (hs : Sails r (.tup l)) {parts : List (Ship V × Nat × Acc)} {ds : List (Option (Win V))}
    (hparts : Qry.intoShips r l = .ok parts) (hlen : parts.length = l.length) (hlend : ds.length = l.length)
    (hget : ∀ (i : Nat) q x d, l[i]? = some q → parts[i]? = some x → ds[i]? = some d → Lead r q x d) :
    ∃ x d, Lead r (.tup l) x d := by
  simp only [Fine] at hf
  simp only [Sails] at hs
  have hall : ∀ (t : Nat) q, l[t]? = some q → ∃ x d, parts[t]? = some x ∧ ds[t]? = some d ∧ Lead r q x d := by
    intro t q ht
    have := SparseSet.getElem?_lt ht
    have hp := List.getElem?_eq_getElem (l := parts) (i := t) (by omega)
    have hd := List.getElem?_eq_getElem (l := ds) (i := t) (by omega)
    exact ⟨_, _, hp, hd, hget t q _ _ ht hp hd⟩
  have hship : ∀ (t : Nat) x, parts[t]? = some x → (parts.map (·.1))[t]? = some x.1 := by
    intro t x h; rw [List.getElem?_map, h]; rfl
  obtain ⟨qc, hqc, hqcc, hqcs⟩ := hs.2.1
  obtain ⟨tc, htc⟩ := List.mem_iff_getElem?.1 hqc
  obtain ⟨xc, dc, hxc, _, hlc⟩ := hall tc qc htc
  obtain ⟨k, q, s, hgo, hk, hks, hkc, _, hmin⟩ := go_least r l (parts.map (·.1)) 0 none usizeMax
    ⟨tc, _, _, htc, hship tc xc hxc, hqcc, hqcs _ _ _ hlc.1⟩
  obtain ⟨x, d, hx, hd, hl⟩ := hall k q hk
  have hsx : s = x.1 := by
    rw [hship k x hx] at hks
    exact (Option.some.inj hks).symm
  subst hsx
  obtain ⟨w, rfl⟩ : ∃ w, d = some w := by
    cases d with
    | none => have := hl.2.2.2.1 rfl; rw [hkc] at this; cases this
    | some w => exact ⟨w, rfl⟩
  have hxw := (hl.2.2.2.2 w rfl).2
  have hsailor : ∀ q ∈ l, q.canSailor = true := fun q hq => bundle_sailor q (bundles_get hb q hq)
  have hpick : Qry.pick r l (parts.map (·.1)) = some k := by
    unfold Qry.pick
    have : l.findIdx? (fun q => !q.canSailor) = none := by
      rw [List.findIdx?_eq_none_iff]
      intro q hq
      simp [hsailor q hq]
    rw [this]
    simp only [hgo, Nat.zero_add]
  have hres : Qry.intoShip r (.tup l) = .ok (Qry.assemble parts (some k)) := by
    have hcap : Qry.captainOf r l parts = .ok (Qry.assemble parts (some k)) := by
      unfold Qry.captainOf
      have hc1 : (!l.any (·.canCaptain)) = false := by
        simp only [Bool.not_eq_false', List.any_eq_true]; exact ⟨_, hqc, hqcc⟩
      have hc2 : l.any (fun q => !q.canCaptain && !q.canSailor) = false := by
        rw [List.any_eq_false]
        intro q hq
        simp [hsailor q hq]
      have hc3 : Ship.sailOvers r (parts.map (·.1)) = false := by
        refine sailOvers_none r fun s hs' => ?_
        obtain ⟨x, hx, rfl⟩ := List.mem_map.1 hs'
        obtain ⟨t, ht⟩ := List.mem_iff_getElem?.1 hx
        have := SparseSet.getElem?_lt ht
        have hq := List.getElem?_eq_getElem (l := l) (i := t) (by omega)
        obtain ⟨x', _, hx', _, hl'⟩ := hall t _ hq
        rw [ht] at hx'
        cases hx'
        exact hs.2.2 _ (List.mem_of_getElem? hq) _ _ _ hl'.1
      have hc4 := hf.2.2
      rw [if_neg (by simp [hc1]), if_neg (by simp [hc2]), if_neg (by omega), if_neg (by simp [hc3]), hpick]
    obtain ⟨p1, p2, ps, rfl⟩ : ∃ p1 p2 ps, parts = p1 :: p2 :: ps := by
      match parts, hlen with
      | [], h => simp at h; omega
      | [_], h => simp at h; omega
      | p1 :: p2 :: ps, _ => exact ⟨p1, p2, ps, rfl⟩
    exact (intoShip_two hparts).trans hcap
  have has : Qry.assemble parts (some k) =
      (.mixed (Qry.unpickBut (some k) 0 (parts.map (·.1))) (if x.1.isExact then some k else none), x.2.1, x.2.2) := by
    unfold Qry.assemble
    simp only [Option.bind_some, hx]
  have hlu : (Qry.unpickBut (some k) 0 (parts.map (·.1))).length = l.length := by
    rw [unpickBut_length, List.length_map, hlen]
  have hkl := SparseSet.getElem?_lt hk
  refine ⟨_, some w, hres, ?_, ?_, fun h => (nomatch h), fun w' h => ⟨?_, ?_⟩⟩
  · rw [has]
    have hcost : Ship.sailTime r (.mixed (Qry.unpickBut (some k) 0 (parts.map (·.1))) (if x.1.isExact then some k else none)) =
        bill r (if onlyView q then some k else none) ((parts.map (·.1.unpick.sailTime r)).set k (x.1.sailTime r)) := by
      simp only [Ship.sailTime, sailTimes_bill]
      have h1 : (if x.1.isExact then some k else none) = (if onlyView q then some k else none : Option Nat) := by rw [hl.2.2.1]
      have h2 : (Qry.unpickBut (some k) 0 (parts.map (·.1))).map (·.sailTime r) =
          (parts.map (·.1.unpick.sailTime r)).set k (x.1.sailTime r) := by
        refine List.ext_getElem? fun j => ?_
        rw [List.getElem?_map, unpickBut_get, List.getElem?_map, List.getElem?_set, List.getElem?_map, List.length_map]
        by_cases hj : k = j
        · subst hj
          rw [if_pos rfl, if_pos (by omega), hx]
          simp
        · rw [if_neg hj]
          cases parts[j]? with
          | none => rfl
          | some y => simp [hj]
      rw [h1, h2]
      rfl
    have hun : Ship.sailTime r (Ship.unpick (.mixed (Qry.unpickBut (some k) 0 (parts.map (·.1))) (if x.1.isExact then some k else none))) =
        bill r none (parts.map (·.1.unpick.sailTime r)) := by
      simp only [Ship.unpick, Ship.sailTime, sailTimes_bill, unpicks_map]
      have h2 : ((Qry.unpickBut (some k) 0 (parts.map (·.1))).map (·.unpick)).map (·.sailTime r) =
          parts.map (·.1.unpick.sailTime r) := by
        refine List.ext_getElem? fun j => ?_
        rw [List.getElem?_map, List.getElem?_map, unpickBut_get, List.getElem?_map, List.getElem?_map]
        cases parts[j]? with
        | none => rfl
        | some y =>
          simp only [Option.map_some]
          split
          · rfl
          · rw [unpick_twice]
      rw [h2]
      rfl
    rw [hcost, hun]
    refine Leads.tup (cs := parts.map (·.1.sailTime r)) (ds := ds) h2 (by rw [List.length_map, hlen]) (by rw [List.length_map, hlen])
      hlend ?_ hk (by rw [List.getElem?_map, hx]; rfl) hd ?_
    · intro i q' c u d' hi hc hu hd'
      obtain ⟨x', d'', hx', hd'', hl'⟩ := hall i q' hi
      rw [List.getElem?_map, hx'] at hc hu
      rw [hd''] at hd'
      cases hc; cases hu; cases hd'
      exact hl'.2.1
    · intro j c' w' hc hd'
      have := SparseSet.getElem?_lt hd'
      have hq' := List.getElem?_eq_getElem (l := l) (i := j) (by omega)
      obtain ⟨x', d'', hx', hd'', hl'⟩ := hall j _ hq'
      rw [List.getElem?_map, hx'] at hc
      rw [hd''] at hd'
      cases hc; cases hd'
      exact hmin j _ x'.1 hq' (hship j x' hx') (hl'.2.2.2.2 w' rfl).1
  · rw [has]
    have : onlyView (.tup l) = false := by
      match l, h2 with
      | _ :: _ :: _, _ => rfl
    rw [this]
    generalize x.1.isExact = b
    simp only [Ship.isExact, hlu]
    cases b <;> simp <;> omega
  · simp only [Qry.canCaptain]
    exact canCaptains_of_mem hqc hqcc
  · cases h
    rw [has]
    exact hxw

mutual
theorem lead_ok (r : Rnd) (st : Win V → Sto V) : ∀ (q : Qry V), bundle q = true → Fine st q → Sails r q → ∃ x d, Lead r q x d
  | .view w, _, _, _ => ⟨(.view w, w.set.dense.length, ⟨w.set.dense, []⟩), some w, by simp only [Qry.intoShip],
      by simp only [Ship.unpick, Ship.sailTime]; exact .view w, by simp only [Ship.isExact, onlyView], fun h => (nomatch h),
      fun w' h => by cases h; exact ⟨by simp only [Qry.canCaptain], rfl⟩⟩
  | .opt w, _, _, _ => ⟨(.opt w, w.set.dense.length, ⟨w.set.dense, []⟩), none, by simp only [Qry.intoShip],
      by simp only [Ship.unpick, Ship.sailTime]; exact .opt w, by simp only [Ship.isExact, onlyView],
      fun _ => by simp only [Qry.canCaptain], fun _ h => (nomatch h)⟩
  | .absent w false, _, _, _ => ⟨(.absent w false, w.set.dense.length, ⟨w.set.dense, []⟩), none, by simp only [Qry.intoShip],
      by simp only [Ship.unpick, Ship.sailTime]; exact .absent w, by simp only [Ship.isExact, onlyView],
      fun _ => by simp only [Qry.canCaptain], fun _ h => (nomatch h)⟩
  | .absent w true, _, _, _ => ⟨(.absent w true, w.set.dense.length, ⟨w.set.dense, []⟩), none, by simp only [Qry.intoShip],
      by simp only [Ship.unpick, Ship.sailTime]; exact .absentMut w, by simp only [Ship.isExact, onlyView],
      fun _ => by simp only [Qry.canCaptain], fun _ h => (nomatch h)⟩
  | .flag k false w, _, _, _ => ⟨(.flag k false w, w.set.dense.length, ⟨w.set.dense, []⟩), some w, by simp only [Qry.intoShip],
      by simp only [Ship.unpick, Ship.sailTime]; exact .flag k w, by simp only [Ship.isExact, onlyView], fun h => (nomatch h),
      fun w' h => by cases h; exact ⟨by simp only [Qry.canCaptain], rfl⟩⟩
  | .flag k true w, _, _, _ => ⟨(.flag k true w, w.set.dense.length, ⟨w.set.dense, []⟩), some w, by simp only [Qry.intoShip],
      by simp only [Ship.unpick, Ship.sailTime]; exact .notFlag k w, by simp only [Ship.isExact, onlyView], fun h => (nomatch h),
      fun w' h => by cases h; exact ⟨by simp only [Qry.canCaptain], rfl⟩⟩
  | .ids _, h, _, _ | .or _ _, h, _, _ => by simp [bundle] at h
  | .tup [], _, hf, _ => by
    simp only [Fine] at hf
    obtain ⟨_, ⟨q, hq, _⟩, _⟩ := hf
    cases hq
  | .tup [q], hb, hf, hs => by
    simp only [bundle, bundles, Bool.and_true] at hb
    simp only [Fine, Fines] at hf
    simp only [Sails, Sailss] at hs
    obtain ⟨x, d, h1, h2, h3, h4, h5⟩ := lead_ok r st q hb hf.1.1 hs.1.1
    refine ⟨x, d, ?_, .alone h2, by rw [h3]; simp only [onlyView], ?_, ?_⟩
    · simp only [Qry.intoShip, Qry.intoShips, h1]; rfl
    · simpa only [Qry.canCaptain, Qry.canCaptains, Bool.or_false] using h4
    · simpa only [Qry.canCaptain, Qry.canCaptains, Bool.or_false] using h5
  | .tup (q :: q' :: l), hb, hf, hs => by
    have hb' := hb
    have hf' := hf
    have hs' := hs
    simp only [bundle] at hb'
    simp only [Fine] at hf'
    simp only [Sails] at hs'
    obtain ⟨parts, ds, h1, h2, h3, h4⟩ := leads_ok r st (q :: q' :: l) hb' hf'.1 hs'.1
    exact lead_tup (by simp) hb' hf hs h1 h2 h3 h4
theorem leads_ok (r : Rnd) (st : Win V → Sto V) : ∀ (l : List (Qry V)), bundles l = true → Fines st l → Sailss r l →
    ∃ (parts : List (Ship V × Nat × Acc)) (ds : List (Option (Win V))), Qry.intoShips r l = .ok parts ∧ parts.length = l.length ∧ ds.length = l.length ∧
      ∀ (i : Nat) q x d, l[i]? = some q → parts[i]? = some x → ds[i]? = some d → Lead r q x d
  | [], _, _, _ => ⟨[], [], by simp only [Qry.intoShips], rfl, rfl, fun t q x d h => by simp at h⟩
  | q :: l, hb, hf, hs => by
    simp only [bundles, Bool.and_eq_true] at hb
    simp only [Fines] at hf
    simp only [Sailss] at hs
    obtain ⟨x, d, hx⟩ := lead_ok r st q hb.1 hf.1 hs.1
    obtain ⟨parts, ds, h1, h2, h3, h4⟩ := leads_ok r st l hb.2 hf.2 hs.2
    refine ⟨x :: parts, d :: ds, ?_, by simp [h2], by simp [h3], ?_⟩
    · simp only [Qry.intoShips, hx.1, h1]; rfl
    · intro t q' x' d' hq hx' hd'
      cases t with
      | zero =>
        simp only [List.getElem?_cons_zero, Option.some.injEq] at hq hx' hd'
        subst hq; subst hx'; subst hd'; exact hx
      | succ t => exact h4 t q' x' d' hq hx' hd'
end

/-- What `Leads` says is determined by the query. -/
theorem Leads.unique {r : Rnd} {q : Qry V} {c u : Nat} {d : Option (Win V)} (h : Leads r q c u d) :
    ∀ {c' u' : Nat} {d' : Option (Win V)}, Leads r q c' u' d' → c = c' ∧ u = u' ∧ d = d' := by
  induction h with
  | view w => intro c' u' d' h; cases h; exact ⟨rfl, rfl, rfl⟩
  | opt w => intro c' u' d' h; cases h; exact ⟨rfl, rfl, rfl⟩
  | absent w => intro c' u' d' h; cases h; exact ⟨rfl, rfl, rfl⟩
  | absentMut w => intro c' u' d' h; cases h; exact ⟨rfl, rfl, rfl⟩
  | flag k w => intro c' u' d' h; cases h; exact ⟨rfl, rfl, rfl⟩
  | notFlag k w => intro c' u' d' h; cases h; exact ⟨rfl, rfl, rfl⟩
  | alone _ ih =>
    intro c' u' d' h
    cases h with
    | alone h => exact ih h
    | tup h2 => simp at h2
  | @tup l cs us ds k c q w h2 hcs hus hds _ hq hc hd hmin ih =>
    intro c' u' d' h
    cases h with
    | alone h => simp at h2
    | @tup _ cs' us' ds' k' c' q' w' _ hcs' hus' hds' hl' hq' hc' hd' hmin' =>
      have hall : ∀ (i : Nat), i < l.length → cs[i]? = cs'[i]? ∧ us[i]? = us'[i]? ∧ ds[i]? = ds'[i]? := by
        intro i hi
        have h0 := List.getElem?_eq_getElem (l := l) (i := i) hi
        have h1 := List.getElem?_eq_getElem (l := cs) (i := i) (by omega)
        have h2 := List.getElem?_eq_getElem (l := us) (i := i) (by omega)
        have h3 := List.getElem?_eq_getElem (l := ds) (i := i) (by omega)
        have h4 := List.getElem?_eq_getElem (l := cs') (i := i) (by omega)
        have h5 := List.getElem?_eq_getElem (l := us') (i := i) (by omega)
        have h6 := List.getElem?_eq_getElem (l := ds') (i := i) (by omega)
        obtain ⟨a, b, c⟩ := ih i _ _ _ _ h0 h1 h2 h3 (hl' i _ _ _ _ h0 h4 h5 h6)
        rw [h1, h2, h3, h4, h5, h6, a, b, c]
        exact ⟨rfl, rfl, rfl⟩
      have e1 : cs = cs' := List.ext_getElem? fun i => by
        by_cases hi : i < l.length
        · exact (hall i hi).1
        · rw [List.getElem?_eq_none (by omega), List.getElem?_eq_none (by omega)]
      have e2 : us = us' := List.ext_getElem? fun i => by
        by_cases hi : i < l.length
        · exact (hall i hi).2.1
        · rw [List.getElem?_eq_none (by omega), List.getElem?_eq_none (by omega)]
      have e3 : ds = ds' := List.ext_getElem? fun i => by
        by_cases hi : i < l.length
        · exact (hall i hi).2.2
        · rw [List.getElem?_eq_none (by omega), List.getElem?_eq_none (by omega)]
      subst e1; subst e2; subst e3
      have ek : k = k' := by
        have a := hmin k' c' w' hc' hd'
        have b := hmin' k c w hc hd
        rcases Nat.lt_trichotomy k k' with h | h | h
        · have := b.2 h; omega
        · exact h
        · have := a.2 h; omega
      subst ek
      rw [hc] at hc'; rw [hd] at hd'; rw [hq] at hq'
      cases hc'; cases hd'; cases hq'
      exact ⟨rfl, rfl, rfl⟩

/-- C101, tuples nested in any way, of views, filters on flags, `!view` and `as_optional`: the storage that drives the iteration is
the one that `Leads` says, and no other. The matching entities come in its order, and the upper bound of `size_hint` is its
length. -/
theorem C101_nested_partial (r : Rnd) {st : Win V → Sto V} {q : Qry V} (hb : bundle q = true) (hf : Fine st q) (hs : Sails r q)
    (hc : q.canCaptain = true) :
    ∃ (c u : Nat) (w : Win V), Leads r q c u (some w) ∧ (∀ c' u' d, Leads r q c' u' d → d = some w) ∧
      ∃ (it : It V) (items : List (EId × Out V)) (lo : Nat), iter r q = .ok it ∧ it.fold = .ok (items.map (·.2)) ∧
        Exactly st q items ∧ (items.map (·.1)).Sublist w.set.dense ∧ it.sizeHint = .ok (lo, w.set.dense.length) := by
  obtain ⟨x, d, h1, h2, _, h4, h5⟩ := lead_ok r st q hb hf hs
  obtain ⟨w, rfl⟩ : ∃ w, d = some w := by
    cases d with
    | none => have := h4 rfl; rw [hc] at this; cases this
    | some w => exact ⟨w, rfl⟩
  obtain ⟨x', hb1, _, hb3⟩ := built_ok r st q hf hs
  rw [h1] at hb1
  cases hb1
  obtain ⟨p, ph, hcap, hph⟩ := hb3 hc
  have hph := hph (bundle_orFree q hb)
  subst hph
  obtain ⟨ship, n, acc⟩ := x
  have hx : (n, acc) = (w.set.dense.length, ⟨w.set.dense, []⟩) := (h5 w rfl).2
  obtain ⟨rfl, rfl⟩ := Prod.mk.injEq .. ▸ hx
  refine ⟨_, _, w, h2, fun c' u' d h => ((h2.unique h).2.2).symm,
    ⟨ship, ⟨w.set.dense, []⟩, ship.isExact, 0, w.set.dense.length⟩, p.items, if ship.isExact then w.set.dense.length else 0, ?_, ?_, ?_, ?_, ?_⟩
  · unfold iter; rw [h1]
  · have hinv : Inv ⟨ship, ⟨w.set.dense, []⟩, ship.isExact, 0, w.set.dense.length⟩ p [] :=
      ⟨hcap.slice, hcap.rest, hcap.phases, rfl, Nat.zero_le _, Nat.le_of_eq hcap.len⟩
    have h := fold_ok hinv
    have hch : (chunks (⟨ship, ⟨w.set.dense, []⟩, ship.isExact, 0, w.set.dense.length⟩ : It V) p []).flatten = p.items := by
      unfold chunks
      have hlen' : w.set.dense.length = p.1.length := hcap.len
      simp only [hlen', seg_all, List.map_nil, List.flatten_cons, List.flatten_nil, List.append_nil]
    rw [hch] at h
    exact h
  · have h := hcap.exact
    simpa using h
  · have h := items_sublist p
    have hd : w.set.dense = p.1 := hcap.slice
    rw [hd]; exact h
  · unfold It.sizeHint
    cases ship.isExact <;>
    simp [Acc.followLen]

/-- `(b, (a, b))`, `b` has four entities and `a` three. -/
def bundleQ : Qry Nat := .tup [.view bW, .tup [.view aW, .view bW]]

theorem bundleQ_fine : Fine demoSt bundleQ := by
  simp only [bundleQ, Fine, Fines]
  refine ⟨⟨bW_reads, ⟨⟨aW_reads, bW_reads, trivial⟩, ⟨.view aW, by simp, rfl⟩, by simp [Qry.canSailor]⟩, trivial⟩,
    ⟨.view bW, by simp, rfl⟩, by simp [Qry.canSailor, Qry.canSailors]⟩

example : bundle bundleQ = true ∧ Fine demoSt bundleQ ∧ Sails f32 bundleQ ∧ bundleQ.canCaptain = true :=
  ⟨rfl, bundleQ_fine, C29_sails bundleQ_fine rfl (by simp [bundleQ, ShortIds, ShortIdss]) (by decide), rfl⟩

/-- C101 is false of nested tuples, which announce the sum of the length of their driver and half the lengths of the other members:
`(b, (a, b))` walks `b`, which has four entities, and not `a`, which has three: `4 < 3 + 4 / 2`. -/
theorem C101_nested_fails : Fine demoSt bundleQ ∧ aW.set.dense.length = 3 ∧ bW.set.dense.length = 4 ∧
    aW.set.dense = [⟨0, 0⟩, ⟨4, 1⟩, ⟨40, 0⟩] ∧ bW.set.dense = [⟨40, 0⟩, ⟨7, 0⟩, ⟨4, 1⟩, ⟨0, 3⟩] ∧
    (iter f32 bundleQ).bind (·.sizeHint) = .ok (0, 4) ∧
    (iter f32 bundleQ).bind (·.fold) = .ok [.tup [.comp 6, .tup [.comp 30, .comp 6]], .tup [.comp 5, .tup [.comp 20, .comp 5]]] :=
  ⟨bundleQ_fine, rfl, rfl, rfl, rfl, by decide +kernel, by rfl⟩

/-- The tuple inside announces 5: three, and half of four. -/
example : Leads f32 (.tup [.view aW, .view bW]) 5 3 (some aW) := by
  have h := Leads.tup (r := f32) (l := [.view aW, .view bW]) (cs := [3, 4]) (us := [3, 4]) (ds := [some aW, some bW]) (k := 0)
    (c := 3) (q := .view aW) (w := aW) (by decide) rfl rfl rfl ?_ rfl rfl rfl ?_
  · exact h
  · intro i q c u d hq hc hu hd
    match i with
    | 0 => cases hq; cases hc; cases hu; cases hd; exact .view aW
    | 1 => cases hq; cases hc; cases hu; cases hd; exact .view bW
    | _ + 2 => simp at hq
  · intro j c' w' hc hd
    match j with
    | 0 => cases hc; exact ⟨Nat.le_refl _, fun h => by omega⟩
    | 1 => cases hc; exact ⟨by omega, fun h => by omega⟩
    | _ + 2 => simp at hc

end Verif.IterSpec
