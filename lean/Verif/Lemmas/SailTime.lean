import Verif.Lemmas.IterTuple
import Verif.Spec.SailTime

/-! # Lemmas: the sail times of the code do not overflow -/
namespace Verif.IterSpec
open StoSpec TrkSpec Iter
variable {V : Type}

theorem rnd24_bounds (x m k : Nat) (hm : m ≤ 2 ^ 24) :
    (x ≤ m * 2 ^ k → rnd24 x ≤ m * 2 ^ k) ∧ (m * 2 ^ k ≤ x → m * 2 ^ k ≤ rnd24 x) := by
  unfold rnd24
  split
  · exact ⟨id, id⟩
  · rename_i hx
    have hx : 2 ^ 24 ≤ x := by omega
    have hx0 : x ≠ 0 := by omega
    have hlo := Nat.log2_self_le hx0
    have hhi := Nat.lt_log2_self (n := x)
    have h24 : 24 ≤ x.log2 := (Nat.le_log2 hx0).2 hx
    obtain ⟨e, he⟩ : ∃ e, x.log2 = e + 23 := ⟨x.log2 - 23, by omega⟩
    simp only [he, Nat.add_sub_cancel]
    rw [he] at hlo hhi
    have hp : 0 < 2 ^ e := Nat.two_pow_pos e
    have hdm := Nat.div_add_mod x (2 ^ e)
    have hml := Nat.mod_lt x hp
    generalize hq : x / 2 ^ e = q at *
    generalize hmm : x % 2 ^ e = y at *
    generalize hE : 2 ^ e = E at *
    have hup : (if 2 * y > E ∨ (2 * y = E ∧ q % 2 = 1) then q + 1 else q) ≤ (if y = 0 then q else q + 1) := by
      split <;> split <;> omega
    have hdn : q ≤ (if 2 * y > E ∨ (2 * y = E ∧ q % 2 = 1) then q + 1 else q) := by split <;> omega
    generalize hz : (if 2 * y > E ∨ (2 * y = E ∧ q % 2 = 1) then q + 1 else q) = z at *
    have hlo' : 2 ^ 23 * E ≤ x := by rw [← hE, ← Nat.pow_add, Nat.add_comm 23 e]; exact hlo
    by_cases hk : e ≤ k
    · obtain ⟨d, rfl⟩ : ∃ d, k = e + d := ⟨k - e, by omega⟩
      have hmul : m * 2 ^ (e + d) = m * 2 ^ d * E := by
        rw [Nat.pow_add, hE, Nat.mul_comm E, Nat.mul_assoc]
      rw [hmul]
      generalize m * 2 ^ d = t
      refine ⟨fun h => Nat.mul_le_mul_right _ (Nat.le_trans hup ?_), fun h => Nat.mul_le_mul_right _ (Nat.le_trans ?_ hdn)⟩
      · have h1 : E * q + y ≤ t * E := by omega
        split
        · refine Nat.le_of_mul_le_mul_right (c := E) ?_ hp
          rw [Nat.mul_comm]; omega
        · refine Nat.lt_of_mul_lt_mul_right (a := E) ?_
          rw [Nat.mul_comm]; omega
      · have h1 : t * E < (q + 1) * E := by
          rw [Nat.add_mul, Nat.one_mul, Nat.mul_comm q]; omega
        have := Nat.lt_of_mul_lt_mul_right h1
        omega
    · obtain ⟨d, rfl⟩ : ∃ d, e = k + 1 + d := ⟨e - k - 1, by omega⟩
      have h1 : m * 2 ^ k ≤ 2 ^ 23 * E := by
        calc m * 2 ^ k ≤ 2 ^ 24 * 2 ^ k := Nat.mul_le_mul_right _ hm
          _ = 2 ^ 23 * 2 ^ (k + 1) := by rw [Nat.pow_succ 2 k, Nat.pow_succ 2 23, Nat.mul_assoc, Nat.mul_comm 2 (2 ^ k)]
          _ ≤ 2 ^ 23 * E := by
            rw [← hE]
            exact Nat.mul_le_mul_left _ (Nat.pow_le_pow_right (by omega) (by omega))
      have hq23 : 2 ^ 23 ≤ q := by
        have : 2 ^ 23 * E < (q + 1) * E := by
          rw [Nat.add_mul, Nat.one_mul, Nat.mul_comm q]; omega
        have := Nat.lt_of_mul_lt_mul_right this
        omega
      refine ⟨fun h => ?_, fun _ => ?_⟩
      · have hxe : x = 2 ^ 23 * E := by omega
        have hy : y = 0 := by rw [← hmm, hxe, ← hE]; exact Nat.mul_mod_left _ _
        rw [if_pos hy] at hup
        have : z * E ≤ q * E := Nat.mul_le_mul_right _ hup
        rw [Nat.mul_comm q] at this
        omega
      · refine Nat.le_trans h1 (Nat.mul_le_mul_right _ (Nat.le_trans hq23 hdn))

theorem rnd24_near (x m k : Nat) (hm : m ≤ 2 ^ 24) :
    (rnd24 x - x) + (x - rnd24 x) ≤ (m * 2 ^ k - x) + (x - m * 2 ^ k) := by
  unfold rnd24
  split
  · omega
  · rename_i hx
    have hx : 2 ^ 24 ≤ x := by omega
    have hx0 : x ≠ 0 := by omega
    have hlo := Nat.log2_self_le hx0
    have h24 : 24 ≤ x.log2 := (Nat.le_log2 hx0).2 hx
    obtain ⟨e, he⟩ : ∃ e, x.log2 = e + 23 := ⟨x.log2 - 23, by omega⟩
    simp only [he, Nat.add_sub_cancel]
    rw [he] at hlo
    have hp : 0 < 2 ^ e := Nat.two_pow_pos e
    have hdm := Nat.div_add_mod x (2 ^ e)
    have hml := Nat.mod_lt x hp
    generalize x / 2 ^ e = q at *
    generalize x % 2 ^ e = y at *
    generalize hE : 2 ^ e = E at *
    have hlo' : 2 ^ 23 * E ≤ x := by rw [← hE, ← Nat.pow_add, Nat.add_comm 23 e]; exact hlo
    have hcase : m * 2 ^ k ≤ q * E ∨ q * E + E ≤ m * 2 ^ k := by
      by_cases hk : e ≤ k
      · obtain ⟨d, rfl⟩ : ∃ d, k = e + d := ⟨k - e, by omega⟩
        have hmul : m * 2 ^ (e + d) = m * 2 ^ d * E := by
          rw [Nat.pow_add, hE, Nat.mul_comm E, Nat.mul_assoc]
        rw [hmul]
        generalize m * 2 ^ d = t
        rcases Nat.lt_or_ge q t with h | h
        · right
          have : (q + 1) * E ≤ t * E := Nat.mul_le_mul_right _ h
          rwa [Nat.add_mul, Nat.one_mul] at this
        · exact Or.inl (Nat.mul_le_mul_right _ h)
      · obtain ⟨d, rfl⟩ : ∃ d, e = k + 1 + d := ⟨e - k - 1, by omega⟩
        left
        have h1 : m * 2 ^ k ≤ 2 ^ 23 * E := by
          calc m * 2 ^ k ≤ 2 ^ 24 * 2 ^ k := Nat.mul_le_mul_right _ hm
            _ = 2 ^ 23 * 2 ^ (k + 1) := by rw [Nat.pow_succ 2 k, Nat.pow_succ 2 23, Nat.mul_assoc, Nat.mul_comm 2 (2 ^ k)]
            _ ≤ 2 ^ 23 * E := by
              rw [← hE]
              exact Nat.mul_le_mul_left _ (Nat.pow_le_pow_right (by omega) (by omega))
        have hq23 : 2 ^ 23 ≤ q := by
          have : 2 ^ 23 * E < (q + 1) * E := by
            rw [Nat.add_mul, Nat.one_mul, Nat.mul_comm q]; omega
          have := Nat.lt_of_mul_lt_mul_right this
          omega
        exact Nat.le_trans h1 (Nat.mul_le_mul_right _ hq23)
    rw [Nat.mul_comm E q] at hdm
    generalize m * 2 ^ k = w at *
    split
    · rename_i h
      rw [Nat.add_mul, Nat.one_mul]
      generalize q * E = B at *
      omega
    · rename_i h
      generalize q * E = B at *
      omega

theorem rnd24_le {x m k : Nat} (hm : m ≤ 2 ^ 24) (h : x ≤ m * 2 ^ k) : rnd24 x ≤ m * 2 ^ k := (rnd24_bounds x m k hm).1 h

theorem rnd24_isF32 (x : Nat) : IsF32 (rnd24 x) := by
  unfold rnd24
  split
  · exact ⟨x, 0, by omega, by omega⟩
  · rename_i hx
    have hx : 2 ^ 24 ≤ x := by omega
    have hx0 : x ≠ 0 := by omega
    have hhi := Nat.lt_log2_self (n := x)
    have h24 : 24 ≤ x.log2 := (Nat.le_log2 hx0).2 hx
    refine ⟨_, _, ?_, rfl⟩
    have : x / 2 ^ (x.log2 - 23) < 2 ^ 24 := by
      rw [Nat.div_lt_iff_lt_mul (Nat.two_pow_pos _), ← Nat.pow_add]
      exact Nat.lt_of_lt_of_le hhi (Nat.pow_le_pow_right (by omega) (by omega))
    split <;> omega

theorem satUsize_le (x : Nat) : satUsize x ≤ x := Nat.min_le_left _ _

theorem f32_same_le {x m k : Nat} (hm : m ≤ 2 ^ 24) (h : x ≤ m * 2 ^ k) : f32.same x ≤ m * 2 ^ k :=
  Nat.le_trans (satUsize_le _) (rnd24_le hm h)

theorem f32_half_le {x m k : Nat} (hm : m ≤ 2 ^ 24) (h : x ≤ m * 2 ^ k) : f32.half x ≤ m * 2 ^ k :=
  Nat.le_trans (satUsize_le _) (Nat.le_trans (Nat.div_le_self _ _) (rnd24_le hm h))

theorem f32_twice_le {x m k : Nat} (hm : m ≤ 2 ^ 24) (h : x ≤ m * 2 ^ k) : f32.twice x ≤ m * 2 ^ (k + 1) := by
  refine Nat.le_trans (satUsize_le _) ?_
  have := rnd24_le hm h
  rw [Nat.pow_succ, ← Nat.mul_assoc]
  omega

theorem f32_not_le {x m k : Nat} (hm : m ≤ 2 ^ 24) (h : x ≤ m * 2 ^ k) : f32.notFactor x ≤ m * 2 ^ (k + 1) := by
  refine Nat.le_trans (satUsize_le _) ?_
  have h1 := rnd24_le hm h
  have h2 : rnd24 x * 10066330 ≤ m * 2 ^ (k + 24) := by
    rw [Nat.pow_add, ← Nat.mul_assoc]
    exact Nat.mul_le_mul h1 (by decide)
  have h3 := rnd24_le hm h2
  refine Nat.div_le_of_le_mul ?_
  refine Nat.le_trans h3 (Nat.le_of_eq ?_)
  rw [show k + 24 = 23 + (k + 1) by omega, Nat.pow_add, ← Nat.mul_assoc, ← Nat.mul_assoc, Nat.mul_comm m]

/-- A storage holds less than 2^48 components. -/
theorem Reads.lt48 {w : Win V} {a : Sto V} (h : Reads w a) : w.set.dense.length ≤ 1 * 2 ^ 48 := by
  obtain ⟨L, hL⟩ := h.2.abs
  have h1 := SparseSet.nodup_le hL.ok.nodup (n := EId.INDEX_MASK) (by
    intro x hx
    obtain ⟨c, hc, rfl⟩ := List.mem_map.1 hx
    exact (hL.ok.cells c hc).2.2.2)
  have h2 : w.set.dense = L.map (·.id) := by rw [hL.shape]; rfl
  rw [h2, List.length_map]
  rw [List.length_map] at h1
  have h3 : EId.INDEX_MASK ≤ 1 * 2 ^ 48 := by decide
  omega

theorem leaf_le {n : Nat} {t : Nat} (h : t ≤ n * 2 ^ 50) (hn : n ≤ 2 ^ 13) : t < usizeMax := by
  have : usizeMax = 2 ^ 64 - 1 := rfl
  omega

mutual
/-- A query without `!&mut view` announces at most 2^50 steps per leaf. -/
theorem sail_bound {st : Win V → Sto V} : ∀ (q : Qry V) (s : Ship V), Fine st q → Of s q → noExclusive q = true →
    ShortIds q → leaves q ≤ 2 ^ 13 → s.sailTime f32 ≤ leaves q * 2 ^ 50 ∧ s.sailOver f32 = false
  | .view w, s, hf, ho, _, _, _ => by
    simp only [Fine] at hf
    simp only [Of] at ho
    subst ho
    simp only [Ship.sailTime, Ship.sailOver, leaves]
    exact ⟨Nat.le_trans hf.lt48 (by omega), trivial⟩
  | .opt w, s, hf, ho, _, _, _ => by
    simp only [Fine] at hf
    simp only [Of] at ho
    subst ho
    simp only [Ship.sailTime, Ship.sailOver, leaves]
    exact ⟨Nat.le_trans hf.lt48 (by omega), trivial⟩
  | .ids l, s, _, ho, _, hi, _ => by
    simp only [ShortIds] at hi
    simp only [Of] at ho
    subst ho
    simp only [Ship.sailTime, Ship.sailOver, leaves]
    exact ⟨by omega, trivial⟩
  | .absent w true, _, _, _, hn, _, _ => by simp [noExclusive] at hn
  | .absent w false, s, hf, ho, _, _, _ => by
    simp only [Fine] at hf
    simp only [Of] at ho
    subst ho
    simp only [Ship.sailTime, Ship.sailOver, leaves]
    exact ⟨Nat.le_trans (f32_not_le (by decide) hf.lt48) (by omega), trivial⟩
  | .flag k false w, s, hf, ho, _, _, _ => by
    simp only [Fine] at hf
    simp only [Of] at ho
    subst ho
    simp only [Ship.sailTime, Ship.sailOver, leaves]
    exact ⟨Nat.le_trans (f32_twice_le (by decide) hf.1.lt48) (by omega), trivial⟩
  | .flag k true w, s, hf, ho, _, _, _ => by
    simp only [Fine] at hf
    simp only [Of] at ho
    subst ho
    simp only [Ship.sailTime, Ship.sailOver, leaves]
    exact ⟨f32_not_le (by decide) (f32_twice_le (by decide) hf.1.lt48), trivial⟩
  | .or a b, s, hf, ho, hn, hi, hl => by
    simp only [Fine] at hf
    simp only [Of] at ho
    simp only [noExclusive, Bool.and_eq_true] at hn
    simp only [ShortIds] at hi
    simp only [leaves] at hl ⊢
    obtain ⟨sa, sb, c, p, rfl, ha, hb⟩ := ho
    have h1 := sail_bound a sa hf.2.2.2.2.1 ha hn.1 hi.1 (by omega)
    have h2 := sail_bound b sb hf.2.2.2.2.2 hb hn.2 hi.2 (by omega)
    simp only [Ship.sailTime, Ship.sailOver, h1.2, h2.2, Bool.false_or, decide_eq_false_iff_not, Nat.not_lt]
    have : usizeMax = 2 ^ 64 - 1 := rfl
    omega
  | .tup [], s, hf, _, _, _, _ => by
    simp only [Fine] at hf
    obtain ⟨_, ⟨q, hq, _⟩, _⟩ := hf
    cases hq
  | .tup [q], s, hf, ho, hn, hi, hl => by
    simp only [Fine, Fines] at hf
    simp only [Of] at ho
    simp only [noExclusive, noExclusives, Bool.and_true] at hn
    simp only [ShortIds, ShortIdss] at hi
    simp only [leaves, leavess, Nat.add_zero] at hl ⊢
    exact sail_bound q s hf.1.1 ho hn hi.1 hl
  | .tup (q :: q' :: l), s, hf, ho, hn, hi, hl => by
    simp only [Fine] at hf
    simp only [Of] at ho
    simp only [noExclusive] at hn
    simp only [ShortIds] at hi
    simp only [leaves] at hl ⊢
    obtain ⟨ls, m, rfl, ho⟩ := ho
    have := sails_bound (q :: q' :: l) ls m 0 hf.1 ho hn hi hl
    simp only [Ship.sailTime, Ship.sailOver, this.2, Bool.false_or, decide_eq_false_iff_not, Nat.not_lt]
    have h1 := leaf_le this.1 hl
    exact ⟨this.1, by omega⟩
theorem sails_bound {st : Win V → Sto V} : ∀ (l : List (Qry V)) (ls : List (Ship V)) (m : Option Nat) (i : Nat), Fines st l →
    Ofs ls l → noExclusives l = true → ShortIdss l → leavess l ≤ 2 ^ 13 →
    Ship.sailTimes f32 ls m i ≤ leavess l * 2 ^ 50 ∧ Ship.sailOvers f32 ls = false
  | [], ls, m, i, _, ho, _, _, _ => by
    simp only [Ofs] at ho
    subst ho
    simp only [Ship.sailTimes, Ship.sailOvers, leavess]
    exact ⟨Nat.zero_le _, trivial⟩
  | q :: l, ls, m, i, hf, ho, hn, hi, hl => by
    simp only [Fines] at hf
    simp only [Ofs] at ho
    simp only [noExclusives, Bool.and_eq_true] at hn
    simp only [ShortIdss] at hi
    simp only [leavess] at hl ⊢
    obtain ⟨s, ls', rfl, h1, h2⟩ := ho
    have h3 := sail_bound q s hf.1 h1 hn.1 hi.1 (by omega)
    have h4 := sails_bound l ls' m (i + 1) hf.2 h2 hn.2 hi.2 (by omega)
    simp only [Ship.sailTimes, Ship.sailOvers, h3.2, h4.2, Bool.or_false]
    refine ⟨?_, trivial⟩
    have h5 : (if m = some i then f32.same (s.sailTime f32) else f32.half (s.sailTime f32)) ≤ leaves q * 2 ^ 50 := by
      split
      · exact f32_same_le (by omega) h3.1
      · exact f32_half_le (by omega) h3.1
    rw [Nat.add_mul]
    exact Nat.add_le_add h5 h4.1
end

mutual
theorem flat_of_none : ∀ (q : Qry V), noExclusive q = true → flatExclusive q = true
  | .view _, _ | .ids _, _ | .opt _, _ | .absent _ _, _ | .flag _ _ _, _ => by simp only [flatExclusive]
  | .or a b, h => by
    simp only [noExclusive, Bool.and_eq_true] at h
    simp only [flatExclusive, Bool.and_eq_true]
    exact ⟨flat_of_none a h.1, flat_of_none b h.2⟩
  | .tup l, h => by
    simp only [noExclusive] at h
    simp only [flatExclusive]
    exact flats_of_none l h
theorem flats_of_none : ∀ (l : List (Qry V)), noExclusives l = true → flatExclusives l = true
  | [], _ => by simp only [flatExclusives]
  | q :: l, h => by
    simp only [noExclusives, Bool.and_eq_true] at h
    simp only [flatExclusives, h.1, Bool.true_or, Bool.true_and]
    exact flats_of_none l h.2
end

theorem flats_get : ∀ {l : List (Qry V)}, flatExclusives l = true → ∀ q ∈ l, noExclusive q = true ∨ isExclusive q = true
  | [], _, _, hq => by cases hq
  | q' :: l, h, q, hq => by
    simp only [flatExclusives, Bool.and_eq_true, Bool.or_eq_true] at h
    rcases List.mem_cons.1 hq with rfl | hq
    · exact h.1
    · exact flats_get h.2 q hq

theorem shorts_get : ∀ {l : List (Qry V)}, ShortIdss l → ∀ q ∈ l, ShortIds q
  | [], _, _, hq => by cases hq
  | q' :: l, h, q, hq => by
    simp only [ShortIdss] at h
    rcases List.mem_cons.1 hq with rfl | hq
    · exact h.1
    · exact shorts_get h.2 q hq

theorem leaves_get : ∀ {l : List (Qry V)}, ∀ q ∈ l, leaves q ≤ leavess l
  | [], _, hq => by cases hq
  | q' :: l, q, hq => by
    simp only [leavess]
    rcases List.mem_cons.1 hq with rfl | hq
    · omega
    · have := leaves_get q hq; omega

theorem sailss_get {r : Rnd} : ∀ {l : List (Qry V)}, Sailss r l → ∀ q ∈ l, Sails r q
  | [], _, _, hq => by cases hq
  | q' :: l, h, q, hq => by
    simp only [Sailss] at h
    rcases List.mem_cons.1 hq with rfl | hq
    · exact h.1
    · exact sailss_get h.2 q hq

theorem fines_mem {st : Win V → Sto V} {l : List (Qry V)} (h : Fines st l) (q : Qry V) (hq : q ∈ l) : Fine st q := by
  obtain ⟨t, ht⟩ := List.mem_iff_getElem?.1 hq
  exact fines_get h t q ht

theorem sails_tup {st : Win V → Sto V} {l : List (Qry V)} (hf : Fine st (.tup l)) (hs : Sailss f32 l)
    (hn : flatExclusives l = true) (hi : ShortIdss l) (hl : leavess l ≤ 2 ^ 13) : Sails f32 (.tup l) := by
  simp only [Fine] at hf
  have key : ∀ q ∈ l, noExclusive q = true → ∀ s n acc, q.intoShip f32 = .ok (s, n, acc) →
      s.sailTime f32 < usizeMax ∧ s.sailOver f32 = false := by
    intro q hq hx s n acc h
    have hfq := fines_mem hf.1 q hq
    obtain ⟨x, h1, h2, _⟩ := built_ok f32 st q hfq (sailss_get hs q hq)
    rw [h] at h1
    cases h1
    have hlq := leaves_get q hq
    have := sail_bound q s hfq h2 hx (shorts_get hi q hq) (by omega)
    exact ⟨leaf_le this.1 (by omega), this.2⟩
  simp only [Sails]
  refine ⟨hs, ?_, ?_⟩
  · obtain ⟨q, hq, hc⟩ := hf.2.1
    refine ⟨q, hq, hc, fun s n acc h => (key q hq ?_ s n acc h).1⟩
    rcases flats_get hn q hq with h | h
    · exact h
    · cases q <;> simp_all [isExclusive, Qry.canCaptain]
  · intro q hq s n acc h
    rcases flats_get hn q hq with hx | hx
    · exact (key q hq hx s n acc h).2
    · cases q with
      | absent w x =>
        simp only [Qry.intoShip, Except.ok.injEq, Prod.mk.injEq] at h
        rw [← h.1]; simp only [Ship.sailOver]
      | _ => simp [isExclusive] at hx

mutual
theorem sails_ok {st : Win V → Sto V} : ∀ (q : Qry V), Fine st q → flatExclusive q = true → ShortIds q → leaves q ≤ 2 ^ 13 →
    Sails f32 q
  | .view _, _, _, _, _ | .ids _, _, _, _, _ | .opt _, _, _, _, _ | .absent _ _, _, _, _, _ | .flag _ _ _, _, _, _, _ => by
    simp only [Sails]
  | .or a b, hf, hn, hi, hl => by
    simp only [Fine] at hf
    simp only [flatExclusive, Bool.and_eq_true] at hn
    simp only [ShortIds] at hi
    simp only [leaves] at hl
    simp only [Sails]
    exact ⟨sails_ok a hf.2.2.2.2.1 hn.1 hi.1 (by omega), sails_ok b hf.2.2.2.2.2 hn.2 hi.2 (by omega)⟩
  | .tup l, hf, hn, hi, hl => by
    have hf' := hf
    simp only [Fine] at hf'
    simp only [flatExclusive] at hn
    simp only [ShortIds] at hi
    simp only [leaves] at hl
    exact sails_tup hf (sailss_ok l hf'.1 hn hi hl) hn hi hl
theorem sailss_ok {st : Win V → Sto V} : ∀ (l : List (Qry V)), Fines st l → flatExclusives l = true → ShortIdss l →
    leavess l ≤ 2 ^ 13 → Sailss f32 l
  | [], _, _, _, _ => by simp only [Sailss]
  | q :: l, hf, hn, hi, hl => by
    simp only [Fines] at hf
    simp only [flatExclusives, Bool.and_eq_true, Bool.or_eq_true] at hn
    simp only [ShortIdss] at hi
    simp only [leavess] at hl
    simp only [Sailss]
    refine ⟨sails_ok q hf.1 ?_ hi.1 (by omega), sailss_ok l hf.2 hn.2 hi.2 (by omega)⟩
    rcases hn.1 with h | h
    · exact flat_of_none q h
    · cases q <;> simp_all [isExclusive, flatExclusive]
end

end Verif.IterSpec
