import Verif.Props.Iter
import Verif.Lemmas.SailTime

/-!
# The hypothesis about sail times, for the arithmetic of the code: C29–C31

`f32` is the rounding of the code (`Verif/Model/SailTime.lean`), and `Sails f32 q` says that building the iterator of
`q` neither overflows nor misses the driving storage. Here that hypothesis is met by every query in which `!&mut view`
is not nested, and an overflow is shown for two in which it is.
-/
namespace Verif.IterSpec
open StoSpec TrkSpec Iter
variable {V : Type}

/-- The rounding of the model is the one of the hardware: it gives a number of at most 24 significant bits, no such
number is nearer to the argument, and it is monotone between such numbers. -/
theorem C29_rounding (x : Nat) : IsF32 (rnd24 x) ∧
    ∀ y, IsF32 y → (rnd24 x - x) + (x - rnd24 x) ≤ (y - x) + (x - y) ∧ (x ≤ y → rnd24 x ≤ y) ∧ (y ≤ x → y ≤ rnd24 x) := by
  refine ⟨rnd24_isF32 x, fun y hy => ?_⟩
  obtain ⟨m, k, hm, rfl⟩ := hy
  exact ⟨rnd24_near x m k hm, rnd24_bounds x m k hm⟩

example : rnd24 16777216 = 16777216 ∧ rnd24 16777217 = 16777216 ∧ rnd24 16777219 = 16777220 ∧
    rnd24 (2 ^ 64 - 1) = 2 ^ 64 := by decide +kernel
example : f32.notFactor 10 = 12 ∧ f32.notFactor 5 = 6 ∧ f32.notFactor 100000000 = 120000008 ∧ f32.half 7 = 3 ∧
    f32.twice 7 = 14 ∧ f32.half usizeMax = 2 ^ 63 ∧ f32.same usizeMax = usizeMax := by decide +kernel

/-- C29, the arithmetic of the code. A query of up to 8192 views in which no `!&mut view` is nested deeper than in the
tuple it filters never overflows while it is built, and always has a driving storage. -/
theorem C29_sails {st : Win V → Sto V} {q : Qry V} (hf : Fine st q) (hn : flatExclusive q = true) (hi : ShortIds q)
    (hl : leaves q ≤ 2 ^ 13) : Sails f32 q := sails_ok q hf hn hi hl

/-- C29, any query, with the arithmetic of the code. -/
theorem C29_query_code_partial {st : Win V → Sto V} {q : Qry V} (hf : Fine st q) (hn : flatExclusive q = true)
    (hi : ShortIds q) (hl : leaves q ≤ 2 ^ 13) (hc : q.canCaptain = true) :
    ∃ (it : It V) (items : List (EId × Out V)), iter f32 q = .ok it ∧ it.fold = .ok (items.map (·.2)) ∧ Exactly st q items ∧
      ∃ back : List (EId × Out V), it.rfold = .ok (back.map (·.2)) ∧ back.Perm items :=
  C29_query_partial f32 hf (C29_sails hf hn hi hl) hc

/-- The hypotheses are met by a query with a nested tuple, a filter and `!&mut view`. -/
def deepQ : Qry Nat := .tup [.tup [.view aW, .flag .inserted true aW], .absent bW true, .opt bW]
theorem deepQ_fine : Fine demoSt deepQ := by
  simp only [deepQ, Fine, Fines]
  refine ⟨⟨⟨⟨aW_reads, ⟨aW_reads, rfl⟩, trivial⟩, ⟨.view aW, by simp, rfl⟩, by decide⟩, bW_reads, bW_reads, trivial⟩,
    ⟨_, List.mem_cons_self, rfl⟩, by decide⟩
example := C29_query_code_partial deepQ_fine rfl (by simp [deepQ, ShortIds, ShortIdss]) (by decide) rfl

theorem f32_half_max : f32.half usizeMax = 2 ^ 63 := by decide +kernel
theorem f32_same_max : f32.same usizeMax = usizeMax := by decide +kernel

theorem exclusive_inner (w1 w2 w3 : Win V) : ∃ mask n acc,
    Qry.intoShip f32 (.tup [.view w1, .absent w2 true, .absent w3 true]) =
      .ok (.mixed [.view w1, .absent w2 true, .absent w3 true] mask, n, acc) := by
  simp only [Qry.intoShip, Qry.intoShips, Except.map]
  unfold Qry.captainOf
  rw [if_neg (by simp [Qry.canCaptain]), if_neg (by simp [Qry.canCaptain, Qry.canSailor]), if_neg (by simp [Qry.canSailor]),
    if_neg (by simp [Ship.sailOvers, Ship.sailOver])]
  unfold Qry.assemble
  generalize Qry.pick f32 _ _ = k
  simp only [List.map_cons, List.map_nil, Qry.unpickBut, Ship.unpick, ite_self]
  split <;> exact ⟨_, _, _, rfl⟩

/-- C29 and C30 are false of a nested tuple with two `!&mut view`: each of them announces `usize::MAX` steps, half of
which is counted, and the sum of both halves overflows. In a debug build, building the iterator panics, whatever the
views hold; a release build wraps. -/
theorem C30_exclusive_fails (w w1 w2 w3 : Win V) :
    iter f32 (.tup [.view w, .tup [.view w1, .absent w2 true, .absent w3 true]]) = .error .panic := by
  obtain ⟨mask, n, acc, h⟩ := exclusive_inner w1 w2 w3
  have hov : Ship.sailOver f32 (.mixed [.view w1, .absent w2 true, .absent w3 true] mask) = true := by
    simp only [Ship.sailOver, Bool.or_eq_true, decide_eq_true_eq]
    refine Or.inr ?_
    simp only [Ship.sailTimes, Ship.sailTime, f32_half_max, f32_same_max]
    have : usizeMax = 2 ^ 64 - 1 := rfl
    split <;> split <;> split <;> omega
  unfold iter
  rw [Qry.intoShip]
  simp only [Qry.intoShips, h, Except.map]
  simp only [Qry.intoShip]
  unfold Qry.captainOf
  rw [if_neg (by simp [Qry.canCaptain]), if_neg (by simp [Qry.canCaptain, Qry.canSailor, Qry.canCaptains]),
    if_neg (by simp [Qry.canSailor, Qry.canSailors]),
    if_pos (by simp only [List.map_cons, List.map_nil, Ship.sailOvers, hov, Bool.or_true, Bool.true_or])]

/-- The queries of `C30_exclusive_fails` satisfy all that is asked of a query, apart from the sail times. -/
example : Fine demoSt (.tup [.view aW, .tup [.view bW, .absent aW true, .absent bW true]]) := by
  simp only [Fine, Fines]
  exact ⟨⟨aW_reads, ⟨⟨bW_reads, aW_reads, bW_reads, trivial⟩, ⟨.view bW, by simp, rfl⟩, by decide⟩, trivial⟩,
    ⟨.view aW, by simp, rfl⟩, by decide⟩

theorem sum_over {a b : Nat} (h : usizeMax < a + b) : decide (a + b > usizeMax) = true := decide_eq_true h
theorem lt_sum (n m : Nat) (hl : 0 < n) : m < n + m := Nat.lt_add_of_pos_left hl

theorem iter_fault {r : Rnd} {q : Qry V} {f : Fault} (h : q.intoShip r = .error f) : iter r q = .error f := by
  unfold iter; rw [h]
theorem intoShip_two {r : Rnd} {l : List (Qry V)} {p p' : Ship V × Nat × Acc} {ps : List (Ship V × Nat × Acc)}
    (h : Qry.intoShips r l = .ok (p :: p' :: ps)) : Qry.intoShip r (.tup l) = Qry.captainOf r l (p :: p' :: ps) := by
  rw [Qry.intoShip, h]
/-- When the sum of some sail time overflows, building panics, for one reason or another. -/
theorem captainOf_over {r : Rnd} {l : List (Qry V)} {ps : List (Ship V × Nat × Acc)}
    (h : Ship.sailOvers r (ps.map (·.1)) = true) : Qry.captainOf r l ps = .error .panic := by
  unfold Qry.captainOf
  rw [if_pos h]
  split
  · rfl
  · split
    · rfl
    · split <;> rfl

/-- C31 is false of `&a | !&mut b` inside a tuple: the sum of what both sides announce overflows as soon as `a` holds a
component. -/
theorem C31_exclusive_fails (w w1 w2 : Win V) (h : w1.set.dense ≠ []) :
    iter f32 (.tup [.view w, .or (.view w1) (.absent w2 true)]) = .error .panic := by
  have hl : 0 < w1.set.dense.length := List.length_pos_iff.2 h
  have hov : Ship.sailOver f32 (.or (.view w1) (.absent w2 true) true false) = true := by
    rw [Ship.sailOver, Bool.or_eq_true]
    refine Or.inr (sum_over ?_)
    rw [Ship.sailTime, Ship.sailTime]
    exact lt_sum _ _ hl
  have hor : Qry.intoShip f32 (.or (.view w1) (.absent w2 true)) = .ok (.or (.view w1) (.absent w2 true) true false,
      w1.set.dense.length, ⟨w1.set.dense, [(w2.set.dense, w2.set.dense.length)]⟩) := by
    rw [Qry.intoShip, Qry.intoShip, Qry.intoShip]
  have hall : Qry.intoShips f32 [.view w, .or (.view w1) (.absent w2 true)] =
      .ok [(.view w, w.set.dense.length, ⟨w.set.dense, []⟩), (.or (.view w1) (.absent w2 true) true false,
        w1.set.dense.length, ⟨w1.set.dense, [(w2.set.dense, w2.set.dense.length)]⟩)] := by
    rw [Qry.intoShips, Qry.intoShip, Qry.intoShips, hor, Qry.intoShips]; rfl
  exact iter_fault ((intoShip_two hall).trans (captainOf_over
    (by simp only [List.map_cons, List.map_nil, Ship.sailOvers, hov, Bool.or_true, Bool.true_or])))

example : iter f32 (.tup [.view bW, .or (.view aW) (.absent bW true)]) = .error .panic :=
  C31_exclusive_fails bW aW bW (List.cons_ne_nil _ _)

end Verif.IterSpec
