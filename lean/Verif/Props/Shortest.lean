import Verif.Props.SailTime
import Verif.Props.IterWorld

/-!
# C101: joint iteration walks the shortest view

`guide/master/src/going-deeper/sparse-set.md:84-86`.
-/
namespace Verif.IterSpec
open StoSpec TrkSpec Iter
variable {V : Type}

/-- Views, and what is written beside them in a tuple: `!view` and `view.as_optional()`. -/
def plainMember : Qry V → Bool
  | .view _ | .opt _ | .absent _ _ => true
  | _ => false

/-- The same, and filters on flags: `view.inserted()`, `!view.modified()`, ... -/
def leafMember : Qry V → Bool
  | .view _ | .opt _ | .absent _ _ | .flag _ _ _ => true
  | _ => false

/-- The cost that a member announces which can give the ids, and its storage. A view announces its length, a filter twice
that, a negated filter more. -/
def announces (r : Rnd) : Qry V → Option (Nat × Win V)
  | .view w => some (w.set.dense.length, w)
  | .flag _ false w => some (r.twice w.set.dense.length, w)
  | .flag _ true w => some (r.notFactor (r.twice w.set.dense.length), w)
  | _ => none

theorem go_least (r : Rnd) : ∀ (qs : List (Qry V)) (ships : List (Ship V)) (i : Nat) (best : Option Nat) (least : Nat),
    (∃ (t : Nat) (q : Qry V) (s : Ship V), qs[t]? = some q ∧ ships[t]? = some s ∧ q.canCaptain = true ∧ s.sailTime r < least) →
    ∃ (t : Nat) (q : Qry V) (s : Ship V), Qry.pick.go r qs ships i best least = some (i + t) ∧ qs[t]? = some q ∧
      ships[t]? = some s ∧ q.canCaptain = true ∧ s.sailTime r < least ∧
      ∀ (j : Nat) (q' : Qry V) (s' : Ship V), qs[j]? = some q' → ships[j]? = some s' → q'.canCaptain = true →
        s.sailTime r ≤ s'.sailTime r ∧ (j < t → s.sailTime r < s'.sailTime r)
  | [], _, _, _, _, h => by obtain ⟨t, q, s, h, _⟩ := h; simp at h
  | _ :: _, [], _, _, _, h => by obtain ⟨t, q, s, _, h, _⟩ := h; simp at h
  | q :: qs, s :: ships, i, best, least, h => by
    simp only [Qry.pick.go]
    by_cases hc : (q.canCaptain && decide (s.sailTime r < least)) = true
    · rw [if_pos hc]
      simp only [Bool.and_eq_true, decide_eq_true_eq] at hc
      by_cases hlater : ∃ (t : Nat) (q' : Qry V) (s' : Ship V), qs[t]? = some q' ∧ ships[t]? = some s' ∧ q'.canCaptain = true ∧
          s'.sailTime r < s.sailTime r
      · obtain ⟨t, q', s', h1, h2, h3, h4, h5, h6⟩ := go_least r qs ships (i + 1) (some i) (s.sailTime r) hlater
        refine ⟨t + 1, q', s', by rw [h1]; congr 1; omega, h2, h3, h4, by omega, fun j q'' s'' h7 h8 h9 => ?_⟩
        cases j with
        | zero =>
          simp only [List.getElem?_cons_zero, Option.some.injEq] at h7 h8
          subst h7; subst h8
          exact ⟨by omega, fun _ => h5⟩
        | succ j =>
          have := h6 j q'' s'' h7 h8 h9
          exact ⟨this.1, fun h => this.2 (by omega)⟩
      · refine ⟨0, q, s, ?_, rfl, rfl, hc.1, hc.2, fun j q'' s'' h7 h8 h9 => ⟨?_, fun h => by omega⟩⟩
        · rw [go_none]
          · rfl
          · intro t q' s' h1 h2 h3 h4; exact hlater ⟨t, q', s', h1, h2, h3, h4⟩
        · cases j with
          | zero =>
            simp only [List.getElem?_cons_zero, Option.some.injEq] at h8
            subst h8; exact Nat.le_refl _
          | succ j =>
            exact Nat.not_lt.1 fun hlt => hlater ⟨j, q'', s'', h7, h8, h9, hlt⟩
    · rw [if_neg hc]
      have hc' : q.canCaptain = true → least ≤ s.sailTime r := by
        intro h1
        simp only [h1, Bool.true_and, decide_eq_true_eq] at hc
        omega
      obtain ⟨t, q', s', h1, h2, h3, h4⟩ := h
      cases t with
      | zero =>
        simp only [List.getElem?_cons_zero, Option.some.injEq] at h1 h2
        subst h1; subst h2
        have := hc' h3
        omega
      | succ t =>
        obtain ⟨t', q', s', h5, h6, h7, h8, h9, h10⟩ := go_least r qs ships (i + 1) best least ⟨t, q', s', h1, h2, h3, h4⟩
        refine ⟨t' + 1, q', s', by rw [h5]; congr 1; omega, h6, h7, h8, h9, fun j q'' s'' h11 h12 h13 => ?_⟩
        cases j with
        | zero =>
          simp only [List.getElem?_cons_zero, Option.some.injEq] at h11 h12
          subst h11; subst h12
          have := hc' h13
          exact ⟨by omega, fun _ => by omega⟩
        | succ j =>
          have := h10 j q'' s'' h11 h12 h13
          exact ⟨this.1, fun h => this.2 (by omega)⟩

theorem leaf_sailss {r : Rnd} : ∀ {l : List (Qry V)}, (∀ q ∈ l, leafMember q = true) → Sailss r l
  | [], _ => by simp only [Sailss]
  | q :: l, h => by
    simp only [Sailss]
    refine ⟨?_, leaf_sailss fun q' hq => h q' (by simp [hq])⟩
    have := h q (by simp)
    cases q <;> simp_all [leafMember, Sails]

theorem leaf_sailor {q : Qry V} (h : leafMember q = true) : q.canSailor = true := by
  cases q <;> simp_all [leafMember, Qry.canSailor]

theorem leaf_orFrees : ∀ {l : List (Qry V)}, (∀ q ∈ l, leafMember q = true) → orFrees l = true
  | [], _ => by simp only [orFrees]
  | q :: l, h => by
    simp only [orFrees, Bool.and_eq_true]
    refine ⟨?_, leaf_orFrees fun q' hq => h q' (by simp [hq])⟩
    have := h q (by simp)
    cases q <;> simp_all [leafMember, orFree]

theorem leaf_over {r : Rnd} {q : Qry V} (h : leafMember q = true) {x : Ship V × Nat × Acc}
    (hx : q.intoShip r = .ok x) : x.1.sailOver r = false := by
  cases q <;> simp [leafMember] at h <;> simp only [Qry.intoShip, Except.ok.injEq] at hx <;> rw [← hx] <;>
    simp only [Ship.sailOver]

theorem items_sublist (p : Ph V) : (p.items.map (·.1)).Sublist p.1 := by
  unfold Ph.items
  induction p.1 with
  | nil => exact List.Sublist.slnil
  | cons e l ih =>
    simp only [List.filterMap_cons]
    cases p.2 e with
    | none => exact ih.cons e
    | some o => exact ih.cons_cons e

theorem leaf_captain {r : Rnd} {q : Qry V} (h : leafMember q = true) (hc : q.canCaptain = true) :
    ∃ c w, announces r q = some (c, w) := by
  cases q with
  | flag k neg w => cases neg <;> exact ⟨_, _, rfl⟩
  | view w => exact ⟨_, _, rfl⟩
  | _ => simp_all [leafMember, Qry.canCaptain]

theorem announces_ship {r : Rnd} {q : Qry V} {c : Nat} {w : Win V} (h : announces r q = some (c, w)) :
    q.canCaptain = true ∧ ∃ s : Ship V, q.intoShip r = .ok (s, w.set.dense.length, ⟨w.set.dense, []⟩) ∧ s.sailTime r = c := by
  cases q with
  | flag k neg w =>
    cases neg <;> cases h <;> exact ⟨by simp [Qry.canCaptain], _, rfl, by simp only [Ship.sailTime]⟩
  | view w => cases h; exact ⟨by simp [Qry.canCaptain], _, rfl, by simp only [Ship.sailTime]⟩
  | _ => cases h

/-- C101. A tuple of views, filters on flags, `!view` and `as_optional` walks the first of the members that announce the
least: the matching entities come in the order of its storage, and the upper bound of `size_hint` is its length. -/
theorem C101_driver_partial (r : Rnd) {st : Win V → Sto V} {l : List (Qry V)} (hp : ∀ q ∈ l, leafMember q = true)
    (h2 : 2 ≤ l.length) (hf : Fine st (.tup l))
    (hc : ∃ q ∈ l, ∃ c w, announces r q = some (c, w) ∧ c < usizeMax) :
    ∃ (k : Nat) (q : Qry V) (c : Nat) (w : Win V), l[k]? = some q ∧ announces r q = some (c, w) ∧
      (∀ (j : Nat) (q' : Qry V) (c' : Nat) (w' : Win V), l[j]? = some q' → announces r q' = some (c', w') →
        c ≤ c' ∧ (j < k → c < c')) ∧
      ∃ (it : It V) (items : List (EId × Out V)), iter r (.tup l) = .ok it ∧ it.fold = .ok (items.map (·.2)) ∧
        Exactly st (.tup l) items ∧ (items.map (·.1)).Sublist w.set.dense ∧
        it.sizeHint = .ok (0, w.set.dense.length) := by
  simp only [Fine] at hf
  obtain ⟨parts, hparts, hlen, hget⟩ := builts_ok r st l hf.1 (leaf_sailss hp)
  have hpart : ∀ (t : Nat) (q : Qry V) (c : Nat) (w : Win V), l[t]? = some q → announces r q = some (c, w) →
      ∃ s : Ship V, parts[t]? = some (s, w.set.dense.length, ⟨w.set.dense, []⟩) ∧ (parts.map (·.1))[t]? = some s ∧
        s.sailTime r = c := by
    intro t q c w ht hq
    obtain ⟨_, s, hs, hst⟩ := announces_ship hq
    have := SparseSet.getElem?_lt ht
    have hp := List.getElem?_eq_getElem (l := parts) (i := t) (by omega)
    have hb := (hget t _ _ ht hp).1
    rw [hs] at hb
    simp only [Except.ok.injEq] at hb
    rw [← hb] at hp
    exact ⟨s, hp, by rw [List.getElem?_map, hp]; rfl, hst⟩
  obtain ⟨qc, hqc, cc, wc, hqa, hcc⟩ := hc
  obtain ⟨tc, htc⟩ := List.mem_iff_getElem?.1 hqc
  have hqcc := (announces_ship hqa).1
  obtain ⟨sc, _, hsc, hscc⟩ := hpart tc qc cc wc htc hqa
  obtain ⟨k, q, s, hgo, hk, hks, hkc, _, hmin⟩ := go_least r l (parts.map (·.1)) 0 none usizeMax
    ⟨tc, _, _, htc, hsc, hqcc, by rw [hscc]; exact hcc⟩
  obtain ⟨c, w, hann⟩ := leaf_captain (r := r) (hp q (List.mem_of_getElem? hk)) hkc
  obtain ⟨s', hpk, hs', hsail'⟩ := hpart k q c w hk hann
  have hs : s' = s := by
    rw [hks] at hs'
    exact (Option.some.inj hs').symm
  subst hs
  have hpick : Qry.pick r l (parts.map (·.1)) = some k := by
    unfold Qry.pick
    have : l.findIdx? (fun q => !q.canSailor) = none := by
      rw [List.findIdx?_eq_none_iff]
      intro q hq
      simp [leaf_sailor (hp q hq)]
    rw [this]
    simp only [hgo, Nat.zero_add]
  have hres : Qry.intoShip r (.tup l) = .ok (Qry.assemble parts (some k)) := by
    have hcap : Qry.captainOf r l parts = .ok (Qry.assemble parts (some k)) := by
      unfold Qry.captainOf
      have hc1 : (!l.any (·.canCaptain)) = false := by
        simp only [Bool.not_eq_false', List.any_eq_true]; exact ⟨_, hqc, hqcc⟩
      have hc2 : l.any (fun q => !q.canCaptain && !q.canSailor) = false := by
        rw [List.any_eq_false]
        intro q hq
        simp [leaf_sailor (hp q hq)]
      have hc3 : Ship.sailOvers r (parts.map (·.1)) = false := by
        refine sailOvers_none r fun s hs => ?_
        obtain ⟨x, hx, rfl⟩ := List.mem_map.1 hs
        obtain ⟨t, ht⟩ := List.mem_iff_getElem?.1 hx
        have := SparseSet.getElem?_lt ht
        have hq := List.getElem?_eq_getElem (l := l) (i := t) (by omega)
        exact leaf_over (hp _ (List.mem_of_getElem? hq)) (hget t _ x hq ht).1
      have hc4 := hf.2.2
      rw [if_neg (by simp [hc1]), if_neg (by simp [hc2]), if_neg (by omega), if_neg (by simp [hc3]), hpick]
    obtain ⟨p1, p2, ps, rfl⟩ : ∃ p1 p2 ps, parts = p1 :: p2 :: ps := by
      match parts, hlen with
      | [], h => simp at h; omega
      | [_], h => simp at h; omega
      | p1 :: p2 :: ps, _ => exact ⟨p1, p2, ps, rfl⟩
    exact (intoShip_two hparts).trans hcap
  have hsail : ∀ (j : Nat) (q' : Qry V), l[j]? = some q' → j ≠ k → q'.canSailor = true :=
    fun j q' hj _ => leaf_sailor (hp q' (List.mem_of_getElem? hj))
  obtain ⟨_, p, ph, hcap, hor⟩ := tup_cap (by omega) hf.1 hlen hget hk hpk hkc hsail
  have hph := hor (by simp only [orFree]; exact leaf_orFrees hp)
  subst hph
  have has : Qry.assemble parts (some k) =
      (.mixed (Qry.unpickBut (some k) 0 (parts.map (·.1))) (if s'.isExact then some k else none),
        w.set.dense.length, ⟨w.set.dense, []⟩) := by
    unfold Qry.assemble
    simp only [Option.bind_some, hpk]
  rw [has] at hcap hres
  generalize hsh : Ship.mixed (Qry.unpickBut (some k) 0 (parts.map (·.1))) (if s'.isExact then some k else none) =
    ship at hcap hres
  have hex : ship.isExact = false := by
    have hlu : ∀ (c : Option Nat) (i : Nat) (ss : List (Ship V)), (Qry.unpickBut c i ss).length = ss.length := by
      intro c i ss
      induction ss generalizing i with
      | nil => simp only [Qry.unpickBut, List.length_nil]
      | cons _ _ ih => simp only [Qry.unpickBut, List.length_cons, ih]
    rw [← hsh]
    generalize s'.isExact = b
    simp only [Ship.isExact, hlu, List.length_map, hlen]
    cases b <;> simp <;> omega
  refine ⟨k, q, c, w, hk, hann, fun j q' c' w' hj hj' => ?_,
    ⟨ship, ⟨w.set.dense, []⟩, ship.isExact, 0, w.set.dense.length⟩, p.items, ?_, ?_, ?_, ?_, ?_⟩
  · obtain ⟨sj, _, hsj, hsjc⟩ := hpart j q' c' w' hj hj'
    have := hmin j q' sj hj hsj (announces_ship hj').1
    rw [hsail', hsjc] at this
    exact this
  · unfold iter; rw [hres]
  · have hinv : Inv ⟨ship, ⟨w.set.dense, []⟩, ship.isExact, 0, w.set.dense.length⟩ p [] :=
      ⟨hcap.slice, hcap.rest, hcap.phases, rfl, Nat.zero_le _, Nat.le_of_eq hcap.len⟩
    have h := fold_ok hinv
    have hch : (chunks (⟨ship, ⟨w.set.dense, []⟩, ship.isExact, 0, w.set.dense.length⟩ : It V) p []).flatten = p.items := by
      unfold chunks
      have hlen' : w.set.dense.length = p.1.length := hcap.len
      simp only [hlen', seg_all, List.map_nil, List.flatten_cons, List.flatten_nil, List.append_nil]
    rw [hch] at h
    exact h
  · have h := hcap.exact
    simpa using h
  · have h := items_sublist p
    have hd : w.set.dense = p.1 := hcap.slice
    rw [hd]; exact h
  · unfold It.sizeHint
    simp only [hex, Acc.followLen, List.map_nil, List.sum_nil, Nat.not_lt_zero, if_false, Nat.sub_zero, Nat.add_zero,
      Bool.false_eq_true]

/-- C101. A tuple of views, with any `!view` and `as_optional` beside them, walks the first of the shortest views: the
matching entities come in the order of that view, and the upper bound of `size_hint` is its length. -/
theorem C101_shortest_partial (r : Rnd) {st : Win V → Sto V} {l : List (Qry V)} (hp : ∀ q ∈ l, plainMember q = true)
    (h2 : 2 ≤ l.length) (hf : Fine st (.tup l)) :
    ∃ (k : Nat) (w : Win V), l[k]? = some (.view w) ∧
      (∀ (j : Nat) (w' : Win V), l[j]? = some (.view w') → w.set.dense.length ≤ w'.set.dense.length ∧
        (j < k → w.set.dense.length < w'.set.dense.length)) ∧
      ∃ (it : It V) (items : List (EId × Out V)), iter r (.tup l) = .ok it ∧ it.fold = .ok (items.map (·.2)) ∧
        Exactly st (.tup l) items ∧ (items.map (·.1)).Sublist w.set.dense ∧
        it.sizeHint = .ok (0, w.set.dense.length) := by
  have hcap : ∃ q ∈ l, ∃ c w, announces r q = some (c, w) ∧ c < usizeMax := by
    simp only [Fine] at hf
    obtain ⟨q, hq, hqc⟩ := hf.2.1
    have hr := fines_mem hf.1 _ hq
    have := hp q hq
    cases q <;> simp [plainMember, Qry.canCaptain] at this hqc
    rename_i w
    simp only [Fine] at hr
    exact ⟨_, hq, _, w, rfl, hr.short⟩
  obtain ⟨k, q, c, w, hk, ha, hmin, hrest⟩ := C101_driver_partial r
    (fun q hq => by have := hp q hq; cases q <;> simp_all [plainMember, leafMember]) h2 hf hcap
  have hq := hp q (List.mem_of_getElem? hk)
  cases q <;> simp [plainMember] at hq <;> cases ha
  exact ⟨k, w, hk, fun j w' hj => hmin j _ _ w' hj rfl, hrest⟩

/-- With the `f32` arithmetic of the code a filter on a storage of less than 2^24 components announces twice its length. -/
theorem C101_filter_cost (k : Flag) (w : Win V) (h : w.set.dense.length < 2 ^ 24) :
    announces f32 (.flag k false w) = some (2 * w.set.dense.length, w) := by
  have h1 : rnd24 w.set.dense.length = w.set.dense.length := by unfold rnd24; rw [if_pos h]
  have h2 : ∀ n, n < 2 ^ 25 → satUsize n = n := by
    intro n hn
    unfold satUsize
    have : (2 : Nat) ^ 25 ≤ usizeMax := by decide
    omega
  simp only [announces, f32, h1]
  rw [h2 _ (by omega)]

/-- `b` has four entities, `a` three: `(b, n?, a, !n)` walks `a`. -/
example := C101_shortest_partial demoR (st := demoSt) (l := [.view bW, .opt nW, .view aW, .absent nW false])
  (by simp [plainMember]) (by decide)
  (by
    simp only [Fine, Fines]
    exact ⟨⟨bW_reads, nW_reads, aW_reads, nW_reads, trivial⟩, ⟨.view aW, by simp, rfl⟩, by decide⟩)
example : (iter f32 (.tup [.view bW, .opt nW, .view aW, .absent nW false])).bind (·.sizeHint) = .ok (0, 3) := by
  decide +kernel

/-- `a.inserted()` announces six, `b` four: `(a.inserted(), b)` walks `b`, in the order of `b`. -/
example := C101_driver_partial f32 (st := demoSt) (l := [.flag .inserted false aW, .view bW])
  (by simp [leafMember]) (by decide)
  (by
    simp only [Fine, Fines]
    exact ⟨⟨⟨aW_reads, rfl⟩, bW_reads, trivial⟩, ⟨.view bW, by simp, rfl⟩, by decide⟩)
  ⟨.view bW, by simp, _, _, rfl, by decide⟩
example : announces f32 (.flag .inserted false aW) = some (6, aW) ∧ announces f32 (.view bW) = some (4, bW) :=
  ⟨C101_filter_cost .inserted aW (by decide), rfl⟩

/-- C101 is false of filters on flags, which count twice: `(b, a.inserted())` walks `b`, which has four entities, and not
`a`, which has three. The entities come in the order of `b`, and `a` has them in another one. -/
theorem C101_flag_fails : Reads aW (demoSt aW) ∧ Reads bW (demoSt bW) ∧
    aW.set.dense = [⟨0, 0⟩, ⟨4, 1⟩, ⟨40, 0⟩] ∧ bW.set.dense = [⟨40, 0⟩, ⟨7, 0⟩, ⟨4, 1⟩, ⟨0, 3⟩] ∧
    (iter f32 (.tup [.view bW, .flag .inserted false aW])).bind (·.sizeHint) = .ok (0, 4) ∧
    (iter f32 (.tup [.view bW, .flag .inserted false aW])).bind (·.fold) =
      .ok [.tup [.comp 6, .comp 30], .tup [.comp 5, .comp 20]] :=
  ⟨aW_reads, bW_reads, rfl, rfl, by decide +kernel, by rfl⟩

theorem world_pick_go (r : Rnd) : ∀ (ws : List (Win V)) (i : Nat) (best : Option Nat) (least : Nat),
    worldShip.pick ws i best least = Qry.pick.go r (ws.map .view) (ws.map .view) i best least
  | [], _, _, _ => rfl
  | w :: ws, i, best, least => by
    have hl : (Ship.view w).sailTime r = w.set.dense.length := by simp only [Ship.sailTime]
    have hg : Qry.pick.go r ((w :: ws).map .view) ((w :: ws).map .view) i best least =
        if (Ship.view w).sailTime r < least then
          Qry.pick.go r (ws.map .view) (ws.map .view) (i + 1) (some i) ((Ship.view w).sailTime r)
        else Qry.pick.go r (ws.map .view) (ws.map .view) (i + 1) best least := by
      by_cases h : (Ship.view w).sailTime r < least <;> simp [Qry.pick.go, Qry.canCaptain, h]
    rw [hg, hl, ← world_pick_go r ws, ← world_pick_go r ws]
    simp only [worldShip.pick]

/-- C101, for `World::iter`: the first of the shortest storages gives the ids, and the upper bound is its length. -/
theorem C101_world_hint {vs : List (Tracking.View V)} (h2 : 2 ≤ vs.length)
    (hs : ∃ v ∈ vs, v.set.dense.length < usizeMax) :
    ∃ (k : Nat) (v : Tracking.View V), vs[k]? = some v ∧
      (∀ (j : Nat) (v' : Tracking.View V), vs[j]? = some v' → v.set.dense.length ≤ v'.set.dense.length ∧
        (j < k → v.set.dense.length < v'.set.dense.length)) ∧
      (worldIter vs).acc = ⟨v.set.dense, []⟩ ∧ (worldIter vs).sizeHint = .ok (0, v.set.dense.length) := by
  obtain ⟨v0, hv0, hlt⟩ := hs
  obtain ⟨t0, ht0⟩ := List.mem_iff_getElem?.1 hv0
  let r : Rnd := ⟨id, id, id, id⟩
  obtain ⟨k, q, s, hgo, hk, hks, _, _, hmin⟩ := go_least r ((vs.map Win.ofOwned).map .view) ((vs.map Win.ofOwned).map .view)
    0 none usizeMax ⟨t0, .view (Win.ofOwned v0), .view (Win.ofOwned v0), by simp [ht0], by simp [ht0], rfl,
      by simp only [Ship.sailTime]; exact hlt⟩
  have hkl : k < vs.length := by
    have := SparseSet.getElem?_lt hk
    simpa using this
  have hse : s = .view (Win.ofOwned vs[k]) := by
    rw [List.getElem?_map, List.getElem?_map, List.getElem?_eq_getElem hkl] at hks
    exact (Option.some.inj hks).symm
  subst hse
  refine ⟨k, vs[k], List.getElem?_eq_getElem hkl, fun j v' hj => ?_, ?_, ?_⟩
  · have := hmin j (.view (Win.ofOwned v')) (.view (Win.ofOwned v')) (by simp [hj]) (by simp [hj]) rfl
    simp only [Ship.sailTime] at this
    exact this
  · unfold worldIter worldShip
    have hpe : (vs.map Win.ofOwned).map (fun w => (Ship.view w, w.set.dense.length, (⟨w.set.dense, []⟩ : Acc))) =
        (vs.map (Win.ofOwned (V := V))).map viewPart := rfl
    simp only [world_pick_go r, hgo, Nat.zero_add]
    rw [hpe, assemble_views (by simpa using hkl)]
    simp only [List.getElem_map]
    rfl
  · unfold worldIter worldShip
    have hpe : (vs.map Win.ofOwned).map (fun w => (Ship.view w, w.set.dense.length, (⟨w.set.dense, []⟩ : Acc))) =
        (vs.map (Win.ofOwned (V := V))).map viewPart := rfl
    simp only [world_pick_go r, hgo, Nat.zero_add]
    rw [hpe, assemble_views (by simpa using hkl)]
    have hx : ∀ l : List (Ship V), 2 ≤ l.length → (Ship.mixed l (some k)).isExact = false := by
      intro l hl
      simp only [Ship.isExact, beq_eq_false_iff_ne, ne_eq, Option.isSome_some, if_true]
      omega
    rw [hx _ (by simpa using h2)]
    unfold It.sizeHint
    simp only [Acc.followLen, List.map_nil, List.sum_nil, Nat.not_lt_zero, if_false, Nat.sub_zero, Nat.add_zero,
      Bool.false_eq_true, List.getElem_map]
    rfl

example := C101_world_hint (vs := [bV, aV]) (by decide) ⟨aV, by simp, by decide⟩
example : (worldIter [bV, aV]).sizeHint = .ok (0, 3) := by decide +kernel

end Verif.IterSpec
