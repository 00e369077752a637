import Verif.Lemmas.IterBuild

/-! # Lemmas: tuples, and every query -/
namespace Verif.IterSpec
open StoSpec TrkSpec Iter
variable {V : Type}

/-! ## Choosing the captain -/

mutual
theorem captain_of_not_sailor : ∀ (q : Qry V), q.canSailor = false → q.canCaptain = true
  | .view _, _ | .ids _, _ | .flag _ _ _, _ | .or _ _, _ => by simp [Qry.canCaptain]
  | .opt _, h | .absent _ _, h => by simp [Qry.canSailor] at h
  | .tup l, h => by
    simp only [Qry.canSailor] at h
    simp only [Qry.canCaptain]
    exact captains_of_not_sailors l h
theorem captains_of_not_sailors : ∀ (l : List (Qry V)), Qry.canSailors l = false → Qry.canCaptains l = true
  | [], h => by simp [Qry.canSailors] at h
  | q :: l, h => by
    simp only [Qry.canSailors, Bool.and_eq_false_iff] at h
    simp only [Qry.canCaptains, Bool.or_eq_true]
    rcases h with h | h
    · exact Or.inl (captain_of_not_sailor q h)
    · exact Or.inr (captains_of_not_sailors l h)
end

theorem filter_one {α : Type} {p : α → Bool} : ∀ {l : List α}, (l.filter p).length ≤ 1 → ∀ {i j : Nat} {a b : α},
    l[i]? = some a → l[j]? = some b → p a = true → p b = true → i = j
  | [], _, _, _, _, _, hi, _, _, _ => by simp at hi
  | x :: l, h, i, j, a, b, hi, hj, ha, hb => by
    have hpos : ∀ {k : Nat} {c : α}, l[k]? = some c → p c = true → 1 ≤ (l.filter p).length := by
      intro k c hk hc
      exact List.length_pos_of_mem (List.mem_filter.2 ⟨List.mem_of_getElem? hk, hc⟩)
    rw [List.filter_cons] at h
    cases i with
    | zero =>
      cases j with
      | zero => rfl
      | succ j =>
        simp only [List.getElem?_cons_zero, Option.some.injEq, List.getElem?_cons_succ] at hi hj
        subst hi
        rw [if_pos ha, List.length_cons] at h
        have := hpos hj hb
        omega
    | succ i =>
      cases j with
      | zero =>
        simp only [List.getElem?_cons_zero, Option.some.injEq, List.getElem?_cons_succ] at hi hj
        subst hj
        rw [if_pos hb, List.length_cons] at h
        have := hpos hi ha
        omega
      | succ j =>
        simp only [List.getElem?_cons_succ] at hi hj
        have : (l.filter p).length ≤ 1 := by
          split at h
          · rw [List.length_cons] at h; omega
          · exact h
        rw [filter_one this hi hj ha hb]

theorem go_none (r : Rnd) : ∀ (qs : List (Qry V)) (ships : List (Ship V)) (i : Nat) (best : Option Nat) (least : Nat),
    (∀ (t : Nat) q s, qs[t]? = some q → ships[t]? = some s → q.canCaptain = true → ¬ s.sailTime r < least) →
    Qry.pick.go r qs ships i best least = best
  | [], _, _, _, _, _ => by simp only [Qry.pick.go]
  | _ :: _, [], _, _, _, _ => by simp only [Qry.pick.go]
  | q :: qs, s :: ships, i, best, least, h => by
    simp only [Qry.pick.go]
    have h0 := h 0 q s rfl rfl
    rw [if_neg (by simpa using h0)]
    exact go_none r qs ships (i + 1) best least (fun t q' s' h1 h2 => h (t + 1) q' s' h1 h2)

theorem go_some (r : Rnd) : ∀ (qs : List (Qry V)) (ships : List (Ship V)) (i : Nat) (best : Option Nat) (least : Nat),
    (∃ (t : Nat) (q : Qry V) (s : Ship V), qs[t]? = some q ∧ ships[t]? = some s ∧ q.canCaptain = true ∧ s.sailTime r < least) →
    ∃ (t : Nat) (q : Qry V), Qry.pick.go r qs ships i best least = some (i + t) ∧ qs[t]? = some q ∧ q.canCaptain = true
  | [], _, _, _, _, h => by obtain ⟨t, q, s, h, _⟩ := h; simp at h
  | _ :: _, [], _, _, _, h => by obtain ⟨t, q, s, _, h, _⟩ := h; simp at h
  | q :: qs, s :: ships, i, best, least, h => by
    simp only [Qry.pick.go]
    by_cases hc : (q.canCaptain && decide (s.sailTime r < least)) = true
    · rw [if_pos hc]
      by_cases hlater : ∃ (t : Nat) (q' : Qry V) (s' : Ship V), qs[t]? = some q' ∧ ships[t]? = some s' ∧ q'.canCaptain = true ∧
          s'.sailTime r < s.sailTime r
      · obtain ⟨t, q', h1, h2, h3⟩ := go_some r qs ships (i + 1) (some i) (s.sailTime r) hlater
        exact ⟨t + 1, q', by rw [h1]; congr 1; omega, h2, h3⟩
      · refine ⟨0, q, ?_, rfl, by simp at hc; exact hc.1⟩
        rw [go_none]
        · rfl
        · intro t q' s' h1 h2 h3 h4; exact hlater ⟨t, q', s', h1, h2, h3, h4⟩
    · rw [if_neg hc]
      obtain ⟨t, q', s', h1, h2, h3, h4⟩ := h
      cases t with
      | zero =>
        simp only [List.getElem?_cons_zero, Option.some.injEq] at h1 h2
        subst h1; subst h2
        exact absurd (by simp [h3, h4]) hc
      | succ t =>
        obtain ⟨t', q', h5, h6, h7⟩ := go_some r qs ships (i + 1) best least ⟨t, q', s', h1, h2, h3, h4⟩
        exact ⟨t' + 1, q', by rw [h5]; congr 1; omega, h6, h7⟩

theorem pick_ok (r : Rnd) {qs : List (Qry V)} {ships : List (Ship V)}
    (h1 : (qs.filter (fun q => !q.canSailor)).length ≤ 1)
    (h2 : ∃ (t : Nat) (q : Qry V) (s : Ship V), qs[t]? = some q ∧ ships[t]? = some s ∧ q.canCaptain = true ∧
      s.sailTime r < usizeMax) :
    ∃ (k : Nat) (q : Qry V), Qry.pick r qs ships = some k ∧ qs[k]? = some q ∧ q.canCaptain = true ∧
      ∀ (j : Nat) (q' : Qry V), qs[j]? = some q' → j ≠ k → q'.canSailor = true := by
  unfold Qry.pick
  cases hf : qs.findIdx? (fun q => !q.canSailor) with
  | some k =>
    simp only
    rw [List.findIdx?_eq_some_iff_getElem] at hf
    obtain ⟨hk, hp, _⟩ := hf
    have hk' := List.getElem?_eq_getElem hk
    have hp' : (qs[k]).canSailor = false := by simpa using hp
    refine ⟨k, qs[k], rfl, hk', captain_of_not_sailor _ hp', ?_⟩
    intro j q' hj hne
    cases hs : q'.canSailor with
    | true => rfl
    | false => exact absurd (filter_one h1 hj hk' (by simp [hs]) hp) hne
  | none =>
    simp only
    obtain ⟨t, q, h3, h4, h5⟩ := go_some r qs ships 0 none usizeMax h2
    refine ⟨t, q, by rw [h3, Nat.zero_add], h4, h5, ?_⟩
    intro j q' hj _
    rw [List.findIdx?_eq_none_iff] at hf
    simpa using hf q' (List.mem_of_getElem? hj)

/-! ## Assembling -/

/-- What each member yields when the one at `k` yields `o`. -/
def outs (st : Win V → Sto V) (e : EId) (k : Nat) (o : Option (Out V)) : Nat → List (Qry V) → List (Option (Out V))
  | _, [] => []
  | j, q :: l => (if k = j then o else item st q e) :: outs st e k o (j + 1) l

theorem outs_self (st : Win V → Sto V) (e : EId) (k : Nat) (o : Option (Out V)) : ∀ (l : List (Qry V)) (j : Nat),
    (∀ (t : Nat) q, l[t]? = some q → j + t = k → item st q e = o) → outs st e k o j l = l.map fun q => item st q e
  | [], _, _ => rfl
  | q :: l, j, h => by
    simp only [outs, List.map_cons]
    rw [outs_self st e k o l (j + 1) (fun t q' h1 h2 => h (t + 1) q' h1 (by omega))]
    split
    · rename_i hk; rw [h 0 q rfl (by omega)]
    · rfl

theorem outs_none {st : Win V → Sto V} {e : EId} {k : Nat} : ∀ {l : List (Qry V)} {j : Nat},
    j ≤ k → k < j + l.length → allOf (outs st e k none j l) = none
  | [], j, h1, h2 => by simp at h2; omega
  | q :: l, j, h1, h2 => by
    simp only [outs]
    by_cases hk : k = j
    · rw [if_pos hk]; rfl
    · rw [if_neg hk]
      simp only [allOf]
      rw [outs_none (by omega) (by simp at h2; omega)]
      cases item st q e <;> rfl

theorem seesL_tuple {st : Win V → Sto V} {e : EId} {i k : Nat} {o : Option (Out V)} {m : Option Nat}
    (hm : m = none ∨ m = some k) : ∀ (ships : List (Ship V)) (qs : List (Qry V)) (j : Nat),
    ships.length = qs.length →
    (∀ (t : Nat) s q, ships[t]? = some s → qs[t]? = some q →
      (j + t = k → Sees s e i o ∧ (m = some k → ∃ x, o = some x ∧ Gives s i x)) ∧
      (j + t ≠ k → Sees s.unpick e i (item st q e))) →
    SeesL m e i j (Qry.unpickBut (some k) j ships) (outs st e k o j qs)
  | [], [], _, _, _ => SeesL.nil
  | [], _ :: _, _, h, _ => by simp at h
  | _ :: _, [], _, h, _ => by simp at h
  | s :: ships, q :: qs, j, hl, h => by
    have ih := seesL_tuple hm ships qs (j + 1) (by simpa using hl)
      (fun t s' q' h1 h2 => by
        have := h (t + 1) s' q' h1 h2
        exact ⟨fun hk => this.1 (by omega), fun hk => this.2 (by omega)⟩)
    have h0 := h 0 s q rfl rfl
    simp only [Qry.unpickBut, outs]
    by_cases hk : k = j
    · subst hk
      rw [if_pos rfl, if_pos rfl]
      obtain ⟨h1, h2⟩ := h0.1 rfl
      rcases hm with hm | hm
      · exact SeesL.ask (by rw [hm]; simp) h1 ih
      · obtain ⟨x, rfl, hg⟩ := h2 hm
        exact SeesL.given hm hg ih
    · rw [if_neg (by simpa using hk), if_neg hk]
      refine SeesL.ask ?_ (h0.2 (by omega)) ih
      rcases hm with hm | hm
      · rw [hm]; simp
      · rw [hm]; simpa using hk

theorem next_unpickBut (k : Option Nat) : ∀ (l : List (Ship V)) (j : Nat),
    Ship.nextSlices (Qry.unpickBut k j l) = Qry.unpickBut k j (Ship.nextSlices l)
  | [], _ => by simp only [Qry.unpickBut, Ship.nextSlices]
  | s :: l, j => by
    simp only [Qry.unpickBut, Ship.nextSlices, next_unpickBut k l (j + 1)]
    split
    · rfl
    · rw [next_unpick]

theorem nextSlices_get : ∀ (l : List (Ship V)) (t : Nat), (Ship.nextSlices l)[t]? = (l[t]?).map Ship.nextSlice
  | [], t => by simp [Ship.nextSlices]
  | s :: l, 0 => by simp [Ship.nextSlices]
  | s :: l, t + 1 => by simp only [Ship.nextSlices, List.getElem?_cons_succ]; exact nextSlices_get l t

theorem nextSlices_length : ∀ (l : List (Ship V)), (Ship.nextSlices l).length = l.length
  | [] => by simp [Ship.nextSlices]
  | s :: l => by simp [Ship.nextSlices, nextSlices_length l]

theorem isExact_next (s : Ship V) : s.nextSlice.isExact = s.isExact := by
  cases s with
  | mixed l m => simp only [Ship.nextSlice, Ship.isExact, nextSlices_length]
  | _ => simp only [Ship.nextSlice, Ship.isExact]

theorem unpickBut_length (k : Option Nat) : ∀ (l : List (Ship V)) (j : Nat), (Qry.unpickBut k j l).length = l.length
  | [], _ => rfl
  | _ :: l, j => by simp [Qry.unpickBut, unpickBut_length k l]

/-- The phases of a tuple are those of its captain. -/
def tupPh (st : Win V → Sto V) (k : Nat) (qs : List (Qry V)) (p : Ph V) : Ph V :=
  (p.1, fun e => (allOf (outs st e k (p.2 e) 0 qs)).map .tup)

/-- What the members other than the captain must be. -/
def Crew (st : Win V → Sto V) (k : Nat) (qs : List (Qry V)) (ships : List (Ship V)) : Prop :=
  ships.length = qs.length ∧
  ∀ (t : Nat) s q, ships[t]? = some s → qs[t]? = some q → t ≠ k → Sailor st q s.unpick

theorem tup_phases {st : Win V → Sto V} {k : Nat} {qs : List (Qry V)} (hqs : qs.length ≠ 1) {m : Option Nat} :
    ∀ (ph : List (Ph V)) (ships : List (Ship V)) (sk : Ship V),
    (∀ (ships' : List (Ship V)), ships' = ships ∨ ships' = Ship.nextSlices ships → Crew st k qs ships') →
    Ship.nextSlices (Ship.nextSlices ships) = Ship.nextSlices ships →
    ships[k]? = some sk → Phases sk ph → (m = none ∨ (m = some k ∧ sk.isExact = true)) →
    Phases (.mixed (Qry.unpickBut (some k) 0 ships) m) (ph.map (tupPh st k qs))
  | [], _, _, _, _, _, _, _ => trivial
  | p :: ph, ships, sk, hcrew, hidem, hk, hp, hm => by
    have hc := hcrew ships (Or.inl rfl)
    refine ⟨⟨hp.1.nodup, hp.1.valid, ?_, ?_⟩, ?_⟩
    · intro i e hi
      refine sees_mixed (seesL_tuple (o := p.2 e) (hm.imp id (·.1)) ships qs 0 hc.1 ?_)
      intro t s q h1 h2
      rw [Nat.zero_add]
      refine ⟨?_, fun h => hc.2 t s q h1 h2 h e i (hp.1.valid e (List.mem_of_getElem? hi))⟩
      rintro rfl
      rw [hk] at h1; cases h1
      refine ⟨hp.1.sees i e hi, ?_⟩
      intro h
      rcases hm with hm | hm
      · rw [hm] at h; cases h
      · exact hp.1.gives hm.2 i e hi
    · intro hx
      exfalso
      have hne : ships.length ≠ 0 := by
        intro h
        rw [List.length_eq_zero_iff] at h
        rw [h] at hk; simp at hk
      have hlen := hc.1
      simp only [Ship.isExact, unpickBut_length, beq_iff_eq] at hx
      split at hx <;> omega
    · simp only [Ship.nextSlice, next_unpickBut]
      refine tup_phases hqs ph (Ship.nextSlices ships) sk.nextSlice ?_ ?_ ?_ hp.2 ?_
      · rintro s' (rfl | rfl)
        · exact hcrew _ (Or.inr rfl)
        · rw [hidem]; exact hcrew _ (Or.inr rfl)
      · rw [hidem, hidem]
      · rw [nextSlices_get, hk]; rfl
      · rw [isExact_next]; exact hm

mutual
theorem next_next : ∀ (s : Ship V), s.nextSlice.nextSlice = s.nextSlice
  | .view _ | .ids _ | .opt _ | .absent _ _ | .flag _ _ _ | .or _ _ _ _ => by simp only [Ship.nextSlice]
  | .mixed l m => by simp only [Ship.nextSlice, next_nexts l]
theorem next_nexts : ∀ (l : List (Ship V)), Ship.nextSlices (Ship.nextSlices l) = Ship.nextSlices l
  | [] => by simp only [Ship.nextSlices]
  | s :: l => by simp only [Ship.nextSlices, next_next s, next_nexts l]
end

theorem tup_ids_sublist (st : Win V → Sto V) (k : Nat) (qs : List (Qry V)) (hk : k < qs.length) (p : Ph V) :
    List.Sublist ((tupPh st k qs p).items.map (·.1)) (p.items.map (·.1)) := by
  rw [Ph.ids_eq, Ph.ids_eq]
  have : (p.1.filter fun e => ((tupPh st k qs p).2 e).isSome) =
      (p.1.filter fun e => (p.2 e).isSome).filter fun e => ((tupPh st k qs p).2 e).isSome := by
    rw [List.filter_filter]
    apply List.filter_congr
    intro e _
    cases h : p.2 e with
    | some x => simp
    | none =>
      have : (tupPh st k qs p).2 e = none := by
        unfold tupPh; simp only [h]; rw [outs_none (by omega) (by omega)]; rfl
      simp [this]
  show List.Sublist (p.1.filter _) _
  rw [this]
  exact List.filter_sublist

theorem flatMap_sublist {α β : Type} {f g : α → List β} : ∀ (l : List α), (∀ a ∈ l, List.Sublist (f a) (g a)) →
    List.Sublist (l.flatMap f) (l.flatMap g)
  | [], _ => List.Sublist.slnil
  | a :: l, h => by
    simp only [List.flatMap_cons]
    exact (h a (by simp)).append (flatMap_sublist l fun b hb => h b (by simp [hb]))

theorem tup_exact {st : Win V → Sto V} {k : Nat} {qs : List (Qry V)} (hqs : qs.length ≠ 1) {q : Qry V}
    (hk : qs[k]? = some q) {ph : List (Ph V)} (h : Exactly st q (ph.flatMap Ph.items)) :
    Exactly st (.tup qs) ((ph.map (tupPh st k qs)).flatMap Ph.items) := by
  have hkl := SparseSet.getElem?_lt hk
  constructor
  · refine List.Nodup.sublist ?_ h.1
    rw [List.map_flatMap, List.map_flatMap, List.flatMap_map]
    exact flatMap_sublist ph fun p _ => tup_ids_sublist st k qs hkl p
  · intro e o
    have hq : ∀ o', item st q e = o' → (allOf (outs st e k o' 0 qs)).map Out.tup = item st (.tup qs) e := by
      intro o' ho
      rw [item_tup st hqs, itemsOf_eq, outs_self]
      intro t q' h1 h2
      rw [Nat.zero_add] at h2; subst h2
      rw [hk] at h1; cases h1; exact ho
    rw [List.mem_flatMap]
    constructor
    · rintro ⟨p', hp', hm⟩
      rw [List.mem_map] at hp'
      obtain ⟨p, hp, rfl⟩ := hp'
      rw [Ph.mem_items] at hm
      cases hpe : p.2 e with
      | none =>
        have h2 := hm.2
        unfold tupPh at h2
        simp only [hpe] at h2
        rw [outs_none (by omega) (by omega)] at h2; cases h2
      | some x =>
        have : item st q e = some x := (h.2 e x).1 (List.mem_flatMap.2 ⟨p, hp, Ph.mem_items.2 ⟨hm.1, hpe⟩⟩)
        rw [← hq _ this, ← hpe]
        exact hm.2
    · intro ho
      cases hx : item st q e with
      | none =>
        rw [← hq _ hx, outs_none (by omega) (by omega)] at ho; cases ho
      | some x =>
        obtain ⟨p, hp, hm⟩ := List.mem_flatMap.1 ((h.2 e x).2 hx)
        rw [Ph.mem_items] at hm
        refine ⟨_, List.mem_map_of_mem hp, ?_⟩
        rw [Ph.mem_items]
        refine ⟨hm.1, ?_⟩
        unfold tupPh
        simp only [hm.2]
        rw [hq _ hx, ho]

/-! ## Every query -/

/-- What building gives for one query. -/
def Built (r : Rnd) (st : Win V → Sto V) (q : Qry V) (x : Ship V × Nat × Acc) : Prop :=
  q.intoShip r = .ok x ∧ Of x.1 q ∧ (q.canCaptain = true → ∃ p ph, Cap st q x.1 x.2.1 x.2.2 p ph ∧ (orFree q = true → ph = []))

theorem fines_get {st : Win V → Sto V} : ∀ {l : List (Qry V)}, Fines st l → ∀ (t : Nat) (q : Qry V), l[t]? = some q → Fine st q
  | [], _, t, q, h => by simp at h
  | q' :: l, hf, 0, q, h => by
    simp only [Fines] at hf
    simp only [List.getElem?_cons_zero, Option.some.injEq] at h
    rw [← h]; exact hf.1
  | q' :: l, hf, t + 1, q, h => by
    simp only [Fines] at hf
    exact fines_get hf.2 t q h

theorem orFrees_get : ∀ {l : List (Qry V)}, orFrees l = true → ∀ (t : Nat) (q : Qry V), l[t]? = some q → orFree q = true
  | [], _, t, q, h => by simp at h
  | q' :: l, hf, 0, q, h => by
    simp only [orFrees, Bool.and_eq_true] at hf
    simp only [List.getElem?_cons_zero, Option.some.injEq] at h
    rw [← h]; exact hf.1
  | q' :: l, hf, t + 1, q, h => by
    simp only [orFrees, Bool.and_eq_true] at hf
    exact orFrees_get hf.2 t q h

theorem ofs_of_get : ∀ (l : List (Qry V)) (ls : List (Ship V)), ls.length = l.length →
    (∀ (t : Nat) s q, ls[t]? = some s → l[t]? = some q → Of s q) → Ofs ls l
  | [], ls, h, _ => by simp only [Ofs]; simpa using h
  | q :: l, [], h, _ => by simp at h
  | q :: l, s :: ls, h, hg => by
    simp only [Ofs]
    exact ⟨s, ls, rfl, hg 0 s q rfl rfl, ofs_of_get l ls (by simpa using h) fun t s' q' h1 h2 => hg (t + 1) s' q' h1 h2⟩

theorem unpickBut_get (k : Nat) : ∀ (l : List (Ship V)) (j t : Nat),
    (Qry.unpickBut (some k) j l)[t]? = (l[t]?).map fun s => if k = j + t then s else s.unpick
  | [], j, t => by simp [Qry.unpickBut]
  | s :: l, j, 0 => by simp [Qry.unpickBut]
  | s :: l, j, t + 1 => by
    simp only [Qry.unpickBut, List.getElem?_cons_succ]
    rw [unpickBut_get k l (j + 1) t]
    congr 1
    funext s'
    rw [show j + 1 + t = j + (t + 1) by omega]

/-- A tuple of at least two members, whichever of those that can be captain is. -/
theorem tup_cap {r : Rnd} {st : Win V → Sto V} {l : List (Qry V)} (h1 : l.length ≠ 1) (hfs : Fines st l)
    {parts : List (Ship V × Nat × Acc)} (hlen : parts.length = l.length)
    (hget : ∀ (t : Nat) q x, l[t]? = some q → parts[t]? = some x → Built r st q x)
    {k : Nat} {q : Qry V} {x : Ship V × Nat × Acc} (hk : l[k]? = some q) (hx : parts[k]? = some x)
    (hqk : q.canCaptain = true)
    (hsail : ∀ (j : Nat) (q' : Qry V), l[j]? = some q' → j ≠ k → q'.canSailor = true) :
    Of (Qry.assemble parts (some k)).1 (.tup l) ∧
    ∃ p ph, Cap st (.tup l) (Qry.assemble parts (some k)).1 (Qry.assemble parts (some k)).2.1
      (Qry.assemble parts (some k)).2.2 p ph ∧ (orFree (.tup l) = true → ph = []) := by
  have hb := hget k q x hk hx
  obtain ⟨p, ph, hcap, hor⟩ := hb.2.2 hqk
  have has : Qry.assemble parts (some k) =
      (.mixed (Qry.unpickBut (some k) 0 (parts.map (·.1))) (if x.1.isExact then some k else none), x.2.1, x.2.2) := by
    unfold Qry.assemble
    simp only [Option.bind_some, hx]
  have hofs : ∀ (t : Nat) s q, (parts.map (·.1))[t]? = some s → l[t]? = some q → Of s q := by
    intro t s q hts htq
    rw [List.getElem?_map, Option.map_eq_some_iff] at hts
    obtain ⟨y, hy, rfl⟩ := hts
    exact (hget t q y htq hy).2.1
  rw [has]
  refine ⟨?_, ?_⟩
  · have : Ofs (Qry.unpickBut (some k) 0 (parts.map (·.1))) l := by
      apply ofs_of_get
      · rw [unpickBut_length]; simpa using hlen
      · intro t s q hts htq
        rw [unpickBut_get, Option.map_eq_some_iff] at hts
        obtain ⟨s', hs', rfl⟩ := hts
        have := hofs t s' q hs' htq
        split
        · exact this
        · exact of_unpick q s' this
    match l, h1, this with
    | [], _, this => simp only [Of]; exact ⟨_, _, rfl, this⟩
    | [_], h, _ => exact absurd rfl h
    | _ :: _ :: _, _, this => simp only [Of]; exact ⟨_, _, rfl, this⟩
  · refine ⟨tupPh st k l p, ph.map (tupPh st k l), ?_, ?_⟩
    · refine ⟨hcap.slice, hcap.len, ?_, ?_, ?_⟩
      · rw [hcap.rest, List.map_map]; rfl
      · refine tup_phases h1 (p :: ph) (parts.map (·.1)) x.1 ?_ (next_nexts _) ?_ hcap.phases ?_
        · rintro ships' (rfl | rfl)
          · refine ⟨by simpa using hlen, fun t s q' hts htq hne => ?_⟩
            exact sailor_ok st q' s (fines_get hfs t q' htq) (hsail t q' htq hne) (hofs t s q' hts htq)
          · refine ⟨by rw [nextSlices_length]; simpa using hlen, fun t s q' hts htq hne => ?_⟩
            rw [nextSlices_get, Option.map_eq_some_iff] at hts
            obtain ⟨s', hs', rfl⟩ := hts
            exact sailor_ok st q' _ (fines_get hfs t q' htq) (hsail t q' htq hne) (of_next q' s' (hofs t s' q' hs' htq))
        · rw [List.getElem?_map, hx]; rfl
        · split
          · rename_i h; exact Or.inr ⟨rfl, h⟩
          · exact Or.inl rfl
      · exact tup_exact h1 hk hcap.exact
    · intro ho
      simp only [orFree] at ho
      rw [hor (orFrees_get ho k q hk)]; rfl

theorem sailOvers_none (r : Rnd) : ∀ {l : List (Ship V)}, (∀ s ∈ l, s.sailOver r = false) → Ship.sailOvers r l = false
  | [], _ => by simp only [Ship.sailOvers]
  | s :: l, h => by
    simp only [Ship.sailOvers, Bool.or_eq_false_iff]
    exact ⟨h s (by simp), sailOvers_none r fun s' hs => h s' (by simp [hs])⟩

/-- A tuple of at least two members, with the captain the code chooses. -/
theorem built_tup {r : Rnd} {st : Win V → Sto V} {l : List (Qry V)} (h1 : l.length ≠ 1)
    (hf : Fine st (.tup l)) (hs : Sails r (.tup l)) {parts : List (Ship V × Nat × Acc)}
    (hparts : Qry.intoShips r l = .ok parts) (hlen : parts.length = l.length)
    (hget : ∀ (t : Nat) q x, l[t]? = some q → parts[t]? = some x → Built r st q x) :
    ∃ x, Built r st (.tup l) x := by
  simp only [Fine] at hf
  obtain ⟨hfs, ⟨qc, hqc, hqcc⟩, hone⟩ := hf
  simp only [Sails] at hs
  obtain ⟨_, ⟨q0, hq0, hq0c, hq0t⟩, hover⟩ := hs
  have hpart : ∀ (t : Nat) (q : Qry V), l[t]? = some q → ∃ x, parts[t]? = some x ∧ Built r st q x := by
    intro t q ht
    have := SparseSet.getElem?_lt ht
    have hp := List.getElem?_eq_getElem (l := parts) (i := t) (by omega)
    exact ⟨_, hp, hget t q _ ht hp⟩
  obtain ⟨t0, ht0⟩ := List.mem_iff_getElem?.1 hq0
  obtain ⟨x0, hx0, hb0⟩ := hpart t0 q0 ht0
  obtain ⟨k, q, hpick, hk, hqk, hsail⟩ := pick_ok r (ships := parts.map (·.1)) hone
    ⟨t0, q0, x0.1, ht0, by rw [List.getElem?_map, hx0]; rfl, hq0c, hq0t x0.1 x0.2.1 x0.2.2 hb0.1⟩
  obtain ⟨x, hx, _⟩ := hpart k q hk
  have hcap1 : (!l.any (·.canCaptain)) = false := by
    simp only [Bool.not_eq_false', List.any_eq_true]; exact ⟨qc, hqc, hqcc⟩
  have hcap2 : l.any (fun q => !q.canCaptain && !q.canSailor) = false := by
    rw [List.any_eq_false]
    intro q' _
    cases h : q'.canSailor with
    | true => simp
    | false => simp [captain_of_not_sailor q' h]
  have hover' : Ship.sailOvers r (parts.map (·.1)) = false := by
    refine sailOvers_none r fun s hs => ?_
    obtain ⟨x, hx, rfl⟩ := List.mem_map.1 hs
    obtain ⟨t, ht⟩ := List.mem_iff_getElem?.1 hx
    have := SparseSet.getElem?_lt ht
    have hq := List.getElem?_eq_getElem (l := l) (i := t) (by omega)
    exact hover _ (List.mem_of_getElem? hq) _ _ _ (hget t _ x hq ht).1
  have hres : Qry.intoShip r (.tup l) = .ok (Qry.assemble parts (some k)) := by
    simp only [Qry.intoShip, hparts]
    have : Qry.captainOf r l parts = .ok (Qry.assemble parts (some k)) := by
      unfold Qry.captainOf
      rw [if_neg (by simp [hcap1]), if_neg (by simp [hcap2]), if_neg (by omega), if_neg (by simp [hover']), hpick]
    match parts, hlen, this with
    | [_], h, _ => exact absurd h.symm (by simpa using h1)
    | [], _, this => exact this
    | _ :: _ :: _, _, this => exact this
  have := tup_cap h1 hfs hlen hget hk hx hqk hsail
  exact ⟨_, hres, this.1, fun _ => this.2⟩

mutual
theorem built_ok (r : Rnd) (st : Win V → Sto V) : ∀ (q : Qry V), Fine st q → Sails r q → ∃ x, Built r st q x
  | .view w, hf, _ => by
    simp only [Fine] at hf
    refine ⟨(.view w, w.set.dense.length, ⟨w.set.dense, []⟩), by simp only [Qry.intoShip], by simp only [Of], fun _ => ?_⟩
    exact ⟨_, [], cap_single (cap_view hf).1 (cap_view hf).2, fun _ => rfl⟩
  | .flag k n w, hf, _ => by
    simp only [Fine] at hf
    refine ⟨(.flag k n w, w.set.dense.length, ⟨w.set.dense, []⟩), by simp only [Qry.intoShip], by simp only [Of], fun _ => ?_⟩
    exact ⟨_, [], cap_single (cap_flag hf.1 hf.2).1 (cap_flag hf.1 hf.2).2, fun _ => rfl⟩
  | .ids l, hf, _ => by
    simp only [Fine] at hf
    refine ⟨(.ids l, l.length, ⟨l, []⟩), by simp only [Qry.intoShip], by simp only [Of], fun _ => ?_⟩
    refine ⟨_, [], cap_single (cap_ids hf.1 hf.2) ?_, fun _ => rfl⟩
    intro e o h
    simp only [item] at h
    split at h
    · assumption
    · cases h
  | .opt w, _, _ => ⟨(.opt w, w.set.dense.length, ⟨w.set.dense, []⟩), by simp only [Qry.intoShip], by simp only [Of], fun h => by simp [Qry.canCaptain] at h⟩
  | .absent w x, _, _ =>
    ⟨(.absent w x, w.set.dense.length, ⟨w.set.dense, []⟩), by simp only [Qry.intoShip], by simp only [Of], fun h => by simp [Qry.canCaptain] at h⟩
  | .or a b, hf, hs => by
    simp only [Fine] at hf
    obtain ⟨hla, hfree, hcb, _, hfa, hfb⟩ := hf
    simp only [Sails] at hs
    obtain ⟨x, h1, h2, h3⟩ := built_ok r st b hfb hs.2
    obtain ⟨p, ph, hcap, hph⟩ := h3 hcb
    rw [hph hfree] at hcap
    obtain ⟨s, n, acc, p', ph', h4, h5, h6⟩ := cap_or r hla hfa h1 hcap h2
    exact ⟨_, h4, h5, fun _ => ⟨p', ph', h6, fun h => by simp [orFree] at h⟩⟩
  | .tup [], hf, _ => by
    simp only [Fine] at hf
    obtain ⟨_, ⟨q, hq, _⟩, _⟩ := hf
    cases hq
  | .tup [q], hf, hs => by
    simp only [Fine, Fines] at hf
    simp only [Sails, Sailss] at hs
    obtain ⟨x, h1, h2, h3⟩ := built_ok r st q hf.1.1 hs.1.1
    refine ⟨x, ?_, ?_, ?_⟩
    · simp only [Qry.intoShip, Qry.intoShips, h1]; rfl
    · simp only [Of]; exact h2
    · intro hc
      simp only [Qry.canCaptain, Qry.canCaptains, Bool.or_false] at hc
      obtain ⟨p, ph, hcap, hph⟩ := h3 hc
      refine ⟨p, ph, ⟨hcap.slice, hcap.len, hcap.rest, hcap.phases, hcap.exact.1, fun e o => ?_⟩, ?_⟩
      · rw [hcap.exact.2]; simp only [item]
      · intro ho
        simp only [orFree, orFrees, Bool.and_true] at ho
        exact hph ho
  | .tup (q :: q' :: l), hf, hs => by
    have hf' := hf
    have hs' := hs
    simp only [Fine] at hf'
    simp only [Sails] at hs'
    obtain ⟨parts, h1, h2, h3⟩ := builts_ok r st (q :: q' :: l) hf'.1 hs'.1
    exact built_tup (by simp) hf hs h1 h2 h3
theorem builts_ok (r : Rnd) (st : Win V → Sto V) : ∀ (l : List (Qry V)), Fines st l → Sailss r l →
    ∃ parts, Qry.intoShips r l = .ok parts ∧ parts.length = l.length ∧
      ∀ (t : Nat) q x, l[t]? = some q → parts[t]? = some x → Built r st q x
  | [], _, _ => ⟨[], by simp only [Qry.intoShips], rfl, fun t q x h => by simp at h⟩
  | q :: l, hf, hs => by
    simp only [Fines] at hf
    simp only [Sailss] at hs
    obtain ⟨x, hx⟩ := built_ok r st q hf.1 hs.1
    obtain ⟨parts, h1, h2, h3⟩ := builts_ok r st l hf.2 hs.2
    refine ⟨x :: parts, ?_, by simp [h2], ?_⟩
    · simp only [Qry.intoShips, hx.1, h1]; rfl
    · intro t q' x' hq hx'
      cases t with
      | zero =>
        simp only [List.getElem?_cons_zero, Option.some.injEq] at hq hx'
        subst hq; subst hx'; exact hx
      | succ t => exact h3 t q' x' hq hx'
end

end Verif.IterSpec
