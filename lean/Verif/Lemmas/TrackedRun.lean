import Verif.Lemmas.ParallelRun
import Verif.Spec.TrackedRun

/-! Everyone is told the truth, whatever the interleaving. -/
namespace Verif.Sched.Told
open Verif.Tracking

variable {V ε ρ : Type}

/-! ## The log -/

theorem changed_wrote {i : Who} {x k y m : Nat} {l : List Ev} :
    Changed i x k (.wrote y m :: l) ↔ (y = x ∧ m = k) ∨ Changed i x k l := by
  constructor
  · rintro ⟨n, o, h, hn⟩
    cases n with
    | nil => cases h; exact .inl ⟨rfl, rfl⟩
    | cons a n =>
      injection h with h1 h2
      exact .inr ⟨n, o, h2, fun h => hn (List.mem_cons_of_mem _ h)⟩
  · rintro (⟨rfl, rfl⟩ | ⟨n, o, h, hn⟩)
    · exact ⟨[], l, rfl, List.not_mem_nil⟩
    · refine ⟨.wrote y m :: n, o, by rw [h]; rfl, ?_⟩
      intro hm
      rcases List.mem_cons.mp hm with h | h
      · cases h
      · exact hn h

theorem changed_told {i j : Who} {x k y m : Nat} {b : Bool} {l : List Ev} :
    Changed i x k (.told j y m b :: l) ↔ Changed i x k l := by
  constructor
  · rintro ⟨n, o, h, hn⟩
    cases n with
    | nil => cases h
    | cons a n =>
      injection h with h1 h2
      exact ⟨n, o, h2, fun h => hn (List.mem_cons_of_mem _ h)⟩
  · rintro ⟨n, o, h, hn⟩
    refine ⟨.told j y m b :: n, o, by rw [h]; rfl, ?_⟩
    intro hm
    rcases List.mem_cons.mp hm with h | h
    · cases h
    · exact hn h

theorem changed_ended {i j : Who} {x k : Nat} {l : List Ev} :
    Changed i x k (.ended j :: l) ↔ i ≠ j ∧ Changed i x k l := by
  constructor
  · rintro ⟨n, o, h, hn⟩
    cases n with
    | nil => cases h
    | cons a n =>
      injection h with h1 h2
      subst h1
      refine ⟨?_, n, o, h2, fun h => hn (List.mem_cons_of_mem _ h)⟩
      rintro rfl
      exact hn List.mem_cons_self
  · rintro ⟨hne, n, o, h, hn⟩
    refine ⟨.ended j :: n, o, by rw [h]; rfl, ?_⟩
    intro hm
    rcases List.mem_cons.mp hm with h | h
    · injection h with h; exact hne h
    · exact hn h

theorem changed_nil {i : Who} {x k : Nat} : ¬ Changed i x k [] := by
  rintro ⟨n, o, h, _⟩
  cases n <;> cases h

theorem exact_nil : Exact [] := by
  intro n i x k b o h
  cases n <;> cases h

theorem exact_wrote {x k : Nat} {l : List Ev} (h : Exact l) : Exact (.wrote x k :: l) := by
  intro n i y m b o e
  cases n with
  | nil => cases e
  | cons a n => injection e with _ e; exact h n i y m b o e

theorem exact_ended {i : Who} {l : List Ev} (h : Exact l) : Exact (.ended i :: l) := by
  intro n j y m b o e
  cases n with
  | nil => cases e
  | cons a n => injection e with _ e; exact h n j y m b o e

theorem exact_told {i : Who} {x k : Nat} {b : Bool} {l : List Ev} (h : Exact l) (hb : b = true ↔ Changed i x k l) :
    Exact (.told i x k b :: l) := by
  intro n j y m c o e
  cases n with
  | nil => injection e with e1 e2; cases e1; subst e2; exact hb
  | cons a n => injection e with _ e; exact h n j y m c o e

theorem within_iff {t last cur : Nat} (h : t ≤ cur) : isWithin t last cur = true ↔ last < t := by
  unfold isWithin
  simp [h]

/-! ## Worlds at rest -/

/-- The times answer the question for `i`. -/
def Right (viewsOf : Who → List TypeInfo) (w : TW V) (i : Who) : Prop :=
  ∀ x k, Views (viewsOf i) x → (w.last i < (w.cell x k).2 ↔ Changed i x k w.log)

structure Rest (viewsOf : Who → List TypeInfo) (w : TW V) : Prop where
  stamps : ∀ x k, (w.cell x k).2 < w.counter
  lasts : ∀ i, w.last i < w.counter
  right : ∀ i, Right viewsOf w i
  exact : Exact w.log

variable {viewsOf : Who → List TypeInfo}

theorem rest_new (v : Nat → Nat → V) : Rest viewsOf (TW.new v) := by
  refine ⟨fun _ _ => Nat.zero_lt_one, fun _ => Nat.zero_lt_one, ?_, exact_nil⟩
  intro i x k _
  exact ⟨fun h => absurd h (Nat.lt_irrefl _), fun h => absurd h changed_nil⟩

theorem cell_put (w : TW V) (x k : Nat) (v : V) (now y m : Nat) :
    ((w.put x k v now).cell y m = (v, now) ∧ y = x ∧ m = k)
    ∨ (¬ (y = x ∧ m = k) ∧ (w.put x k v now).cell y m = w.cell y m) := by
  by_cases h : y = x ∧ m = k
  · exact .inl ⟨by unfold TW.put; exact if_pos h, h⟩
  · exact .inr ⟨h, by unfold TW.put; exact if_neg h⟩

theorem changed_put {w : TW V} {x k : Nat} {v : V} {now : Nat} {i : Who} {y m : Nat} :
    Changed i y m (w.put x k v now).log ↔ (x = y ∧ k = m) ∨ Changed i y m w.log := changed_wrote

theorem rest_fresh {w : TW V} (h : Rest viewsOf w) (x k : Nat) (v : V) : Rest viewsOf (w.fresh x k v) := by
  refine ⟨?_, fun i => Nat.lt_succ_of_lt (h.lasts i), ?_, exact_wrote h.exact⟩
  · intro y m
    rcases cell_put w.tick x k v w.counter y m with ⟨e, _⟩ | ⟨_, e⟩
    · show ((w.tick.put x k v w.counter).cell y m).2 < w.counter + 1
      rw [e]; exact Nat.lt_succ_self _
    · show ((w.tick.put x k v w.counter).cell y m).2 < w.counter + 1
      rw [e]; exact Nat.lt_succ_of_lt (h.stamps y m)
  · intro i y m hv
    show w.last i < ((w.tick.put x k v w.counter).cell y m).2 ↔ Changed i y m (w.tick.put x k v w.counter).log
    rw [changed_put]
    rcases cell_put w.tick x k v w.counter y m with ⟨e, rfl, rfl⟩ | ⟨hne, e⟩
    · rw [e]
      exact ⟨fun _ => .inl ⟨rfl, rfl⟩, fun _ => h.lasts i⟩
    · rw [e]
      constructor
      · intro hl; exact .inr ((h.right i y m hv).mp hl)
      · rintro (⟨rfl, rfl⟩ | hl)
        · exact absurd ⟨rfl, rfl⟩ hne
        · exact (h.right i y m hv).mpr hl

/-! ## Running without interleaving -/

/-- During a run of `i` that nothing interrupts, with the time `cur` and the time of the last run `last`. -/
structure During (viewsOf : Who → List TypeInfo) (i : Who) (last cur : Nat) (w : TW V) : Prop where
  stamps : ∀ x k, (w.cell x k).2 < w.counter
  lasts : ∀ j, w.last j < w.counter
  mine : w.last i = cur
  others : ∀ j, j ≠ i → w.last j < cur
  right : ∀ j, j ≠ i → Right viewsOf w j
  here : ∀ x k, Views (viewsOf i) x → (w.cell x k).2 ≤ cur ∧ (last < (w.cell x k).2 ↔ Changed i x k w.log)
  exact : Exact w.log

theorem During.put {i : Who} {last cur : Nat} {w : TW V} (h : During viewsOf i last cur w) (hl : last < cur) {x k : Nat} {v : V}
    {now : Nat} (hn : cur ≤ now) (hn' : now < w.counter) (hx : Views (viewsOf i) x → now = cur) :
    During viewsOf i last cur (w.put x k v now) := by
  refine ⟨?_, h.lasts, h.mine, h.others, ?_, ?_, exact_wrote h.exact⟩
  · intro y m
    rcases cell_put w x k v now y m with ⟨e, _⟩ | ⟨_, e⟩
    · rw [e]; exact hn'
    · rw [e]; exact h.stamps y m
  · intro j hj y m hv
    rw [changed_put]
    rcases cell_put w x k v now y m with ⟨e, rfl, rfl⟩ | ⟨hne, e⟩
    · rw [e]
      exact ⟨fun _ => .inl ⟨rfl, rfl⟩, fun _ => Nat.lt_of_lt_of_le (h.others j hj) hn⟩
    · rw [e]
      constructor
      · intro hl; exact .inr ((h.right j hj y m hv).mp hl)
      · rintro (⟨rfl, rfl⟩ | hl)
        · exact absurd ⟨rfl, rfl⟩ hne
        · exact (h.right j hj y m hv).mpr hl
  · intro y m hv
    rw [changed_put]
    rcases cell_put w x k v now y m with ⟨e, rfl, rfl⟩ | ⟨hne, e⟩
    · rw [e]
      have := hx hv
      exact ⟨Nat.le_of_eq this, fun _ => .inl ⟨rfl, rfl⟩, fun _ => by show last < now; omega⟩
    · rw [e]
      refine ⟨(h.here y m hv).1, ?_⟩
      constructor
      · intro hl; exact .inr ((h.here y m hv).2.mp hl)
      · rintro (⟨rfl, rfl⟩ | hl)
        · exact absurd ⟨rfl, rfl⟩ hne
        · exact (h.here y m hv).2.mpr hl

theorem During.tick {i : Who} {last cur : Nat} {w : TW V} (h : During viewsOf i last cur w) : During viewsOf i last cur w.tick :=
  ⟨fun x k => Nat.lt_succ_of_lt (h.stamps x k), fun j => Nat.lt_succ_of_lt (h.lasts j), h.mine, h.others, h.right, h.here, h.exact⟩

theorem runT_rest (i : Who) (last cur : Nat) (hlast : last < cur) : ∀ (p : TProg V ρ) (w : TW V), p.Within (viewsOf i) →
    During viewsOf i last cur w → Rest viewsOf (runT i last cur p w).1
  | .done r, w, _, h => by
    refine ⟨h.stamps, h.lasts, ?_, exact_ended h.exact⟩
    intro j x k hv
    show w.last j < (w.cell x k).2 ↔ Changed j x k (.ended i :: w.log)
    rw [changed_ended]
    by_cases hj : j = i
    · subst hj
      rw [h.mine]
      exact ⟨fun hl => absurd (h.here x k hv).1 (Nat.not_le.mpr hl), fun hl => absurd rfl hl.1⟩
    · rw [h.right j hj x k hv]
      exact ⟨fun hl => ⟨hj, hl⟩, fun hl => hl.2⟩
  | .write x k v p, w, hw, h => by
    cases hw with
    | write hx hp =>
      have hc : cur < w.counter := by rw [← h.mine]; exact h.lasts i
      exact runT_rest i last cur hlast p _ hp (h.put hlast (Nat.le_refl _) hc fun _ => rfl)
  | .fresh x k v p, w, hw, h => by
    cases hw with
    | fresh _ hx hp =>
      have hc : cur < w.counter := by rw [← h.mine]; exact h.lasts i
      exact runT_rest i last cur hlast p _ hp (h.tick.put hlast (Nat.le_of_lt hc) (Nat.lt_succ_self _) fun hv => absurd hv hx)
  | .look x k p, w, hw, h => by
    cases hw with
    | look hx hp =>
      refine runT_rest i last cur hlast (p (w.cell x k).1 (w.ask x k last cur)) (w.look i x k last cur) (hp _ _)
        ⟨h.stamps, h.lasts, h.mine, h.others, ?_, ?_, ?_⟩
      · intro j hj y m hv
        show w.last j < (w.cell y m).2 ↔ Changed j y m (.told i x k _ :: w.log)
        rw [changed_told]
        exact h.right j hj y m hv
      · intro y m hv
        refine ⟨(h.here y m hv).1, ?_⟩
        show last < (w.cell y m).2 ↔ Changed i y m (.told i x k _ :: w.log)
        rw [changed_told]
        exact (h.here y m hv).2
      · refine exact_told h.exact ?_
        show isWithin (w.cell x k).2 last cur = true ↔ _
        rw [within_iff (h.here x k hx).1]
        exact (h.here x k hx).2

theorem condition_rest {w : TW V} (h : Rest viewsOf w) {n : Nat} {p : TProg V (Except ε Bool)}
    (hp : p.Within (viewsOf (.condition n))) : Rest viewsOf (condition n p w).1 := by
  refine runT_rest _ _ _ (h.lasts _) p _ hp ⟨?_, ?_, ?_, ?_, ?_, ?_, h.exact⟩
  · exact fun x k => Nat.lt_succ_of_lt (h.stamps x k)
  · intro j
    show (if j = Who.condition n then w.counter else w.last j) < w.counter + 1
    split
    · exact Nat.lt_succ_self _
    · exact Nat.lt_succ_of_lt (h.lasts j)
  · show (if Who.condition n = Who.condition n then w.counter else _) = w.counter
    exact if_pos rfl
  · intro j hj
    show (if j = Who.condition n then w.counter else w.last j) < w.counter
    rw [if_neg hj]; exact h.lasts j
  · intro j hj x k hv
    show (if j = Who.condition n then w.counter else w.last j) < (w.cell x k).2 ↔ Changed j x k w.log
    rw [if_neg hj]; exact h.right j x k hv
  · intro x k hv
    exact ⟨Nat.le_of_lt (h.stamps x k), h.right _ x k hv⟩

theorem isCond_rest {c : Cond (TW V) ε} (hc : IsCond viewsOf c) : ∀ {w : TW V}, Rest viewsOf w → Rest viewsOf (c w).1 := by
  induction hc with
  | plain r => exact fun h => h
  | one hp => exact fun h => condition_rest h hp
  | @both a b _ _ iha ihb =>
    intro w h
    unfold bothC
    have ha := iha h
    rcases e : a w with ⟨w1, er | (_ | _)⟩ <;> rw [e] at ha
    · exact ha
    · exact ha
    · exact ihb ha

/-! ## What runs can be told apart by

`abs w` keeps of a world what does not depend on the clock: the values, how often each place was written and, for each system and each
condition, what it was told and how often each place was written when its last run ended. The place `2 * x` holds storage `x`, the place
`own i` what belongs to `i`. -/

structure AV (V : Type) where
  cells : Nat → V × Nat
  seen : Nat → Nat → Nat
  heard : List (Nat × Nat × Bool)

def own : Who → Nat
  | .system t => 4 * t + 1
  | .condition n => 4 * n + 3

def whose (l : Nat) : Who := if l % 4 = 1 then .system (l / 4) else .condition (l / 4)

theorem whose_own (i : Who) : whose (own i) = i := by
  unfold whose own
  cases i with
  | system t => dsimp only; rw [if_pos (by omega)]; congr 1; omega
  | condition n => dsimp only; rw [if_neg (by omega)]; congr 1; omega

theorem own_inj {i j : Who} (h : own i = own j) : i = j := by rw [← whose_own i, h, whose_own]

theorem own_odd (i : Who) : own i % 2 = 1 := by
  unfold own
  cases i <;> (dsimp only; omega)

theorem own_ne (i : Who) (x : Nat) : own i ≠ 2 * x := by
  have := own_odd i
  omega

theorem own_whose {l : Nat} (h : l % 2 = 1) : own (whose l) = l := by
  unfold whose
  split
  · show 4 * (l / 4) + 1 = l; omega
  · show 4 * (l / 4) + 3 = l; omega

def writes (x k : Nat) (log : List Ev) : Nat := log.count (.wrote x k)

def seen (vs : List Nat) (i : Who) (x k : Nat) : List Ev → Nat
  | [] => 0
  | .ended j :: l => if j = i ∧ x ∈ vs then writes x k l else seen vs i x k l
  | _ :: l => seen vs i x k l

def stores (B : List TypeInfo) : List Nat := B.map (·.storage)

theorem mem_stores {B : List TypeInfo} {x : Nat} : x ∈ stores B ↔ Views B x := by
  unfold stores Views
  rw [List.mem_map]

def abs (viewsOf : Who → List TypeInfo) (d : V) (w : TW V) : Nat → AV V := fun l =>
  if l % 2 = 0 then ⟨fun k => ((w.cell (l / 2) k).1, writes (l / 2) k w.log), fun _ _ => 0, []⟩
  else ⟨fun _ => (d, 0), fun x k => seen (stores (viewsOf (whose l))) (whose l) x k w.log, heard (whose l) w.log⟩

theorem abs_even (d : V) (w : TW V) (x : Nat) :
    abs viewsOf d w (2 * x) = ⟨fun k => ((w.cell x k).1, writes x k w.log), fun _ _ => 0, []⟩ := by
  unfold abs
  rw [if_pos (by omega), Nat.mul_div_cancel_left x (by omega)]

theorem abs_own (d : V) (w : TW V) (i : Who) :
    abs viewsOf d w (own i) = ⟨fun _ => (d, 0), fun x k => seen (stores (viewsOf i)) i x k w.log, heard i w.log⟩ := by
  unfold abs
  rw [if_neg (by rw [own_odd]; omega), whose_own]

theorem abs_ext {a b : Nat → AV V} (h0 : ∀ x, a (2 * x) = b (2 * x)) (h1 : ∀ i, a (own i) = b (own i)) : a = b := by
  funext l
  rcases Nat.mod_two_eq_zero_or_one l with h | h
  · have := h0 (l / 2)
    rwa [show 2 * (l / 2) = l by omega] at this
  · have := h1 (whose l)
    rwa [own_whose h] at this

theorem seen_le (vs : List Nat) (i : Who) (x k : Nat) : ∀ log, seen vs i x k log ≤ writes x k log
  | [] => Nat.le_refl _
  | e :: l => by
    have ih := seen_le vs i x k l
    have hw : writes x k l ≤ writes x k (e :: l) := List.count_le_count_cons
    unfold seen
    split
    · exact Nat.zero_le _
    · rename_i h; cases h
      split
      · exact hw
      · exact Nat.le_trans ih hw
    · rename_i h; cases h
      exact Nat.le_trans ih hw

theorem changed_seen {vs : List Nat} {i : Who} {x : Nat} (k : Nat) (hx : x ∈ vs) : ∀ log, Changed i x k log ↔ seen vs i x k log
    < writes x k log
  | [] => ⟨fun h => absurd h changed_nil, fun h => absurd h (Nat.lt_irrefl _)⟩
  | .wrote y m :: l => by
    rw [changed_wrote, changed_seen k hx l]
    have hs : seen vs i x k (.wrote y m :: l) = seen vs i x k l := rfl
    rw [hs]
    unfold writes
    rw [List.count_cons]
    have hle := seen_le vs i x k l
    unfold writes at hle
    by_cases h : y = x ∧ m = k
    · obtain ⟨rfl, rfl⟩ := h
      rw [beq_self_eq_true, if_pos rfl]
      exact ⟨fun _ => by omega, fun _ => .inl ⟨rfl, rfl⟩⟩
    · rw [if_neg (by simpa using h), Nat.add_zero]
      exact ⟨fun h' => h'.resolve_left h, .inr⟩
  | .told j y m b :: l => by
    rw [changed_told, changed_seen k hx l]
    have hw : writes x k (.told j y m b :: l) = writes x k l := List.count_cons_of_ne (fun h => by cases h)
    rw [hw]
    exact Iff.rfl
  | .ended j :: l => by
    rw [changed_ended, changed_seen k hx l]
    have hw : writes x k (.ended j :: l) = writes x k l := List.count_cons_of_ne (fun h => by cases h)
    rw [hw]
    show _ ↔ (if j = i ∧ x ∈ vs then writes x k l else seen vs i x k l) < _
    split
    · rename_i h
      exact ⟨fun h' => absurd h.1.symm h'.1, fun h' => absurd h' (Nat.lt_irrefl _)⟩
    · rename_i h
      exact ⟨fun h' => h'.2, fun h' => ⟨fun e => h ⟨e.symm, hx⟩, h'⟩⟩

def aput (x k : Nat) (v : V) (a : Nat → AV V) : Nat → AV V := fun l =>
  if l = 2 * x then { a l with cells := fun m => if m = k then (v, ((a l).cells m).2 + 1) else (a l).cells m } else a l

def aask (i : Who) (x k : Nat) (a : Nat → AV V) : Bool := decide ((a (own i)).seen x k < ((a (2 * x)).cells k).2)

def alook (i : Who) (x k : Nat) (a : Nat → AV V) : Nat → AV V := fun l =>
  if l = own i then { a l with heard := (x, k, aask i x k a) :: (a l).heard } else a l

def afinish (vs : List Nat) (i : Who) (a : Nat → AV V) : Nat → AV V := fun l =>
  if l = own i then { a l with seen := fun x k => if x ∈ vs then ((a (2 * x)).cells k).2 else (a l).seen x k } else a l

def abody (vs : List Nat) (t : Nat) : TProg V (Except ε Unit) → Prog (Nat → AV V) ε
  | .done r => .act (afinish vs (.system t)) fun _ => .done r
  | .write x k v p => .act (aput x k v) fun _ => abody vs t p
  | .fresh x k v p => .act (aput x k v) fun _ => abody vs t p
  | .look x k p => .act (alook (.system t) x k) fun a => abody vs t (p ((a (2 * x)).cells k).1 (aask (.system t) x k a))

def aswapped (vs : List Nat) (t : Nat) (p : TProg V (Except ε Unit)) : Prog (Nat → AV V) ε := .act id fun _ => abody vs t p

def asys (vs : List Nat) (t : Nat) : Sys V ε → Prog (Nat → AV V) ε
  | .plain r => .done r
  | .tracked p => .act id fun _ => aswapped vs t p

/-- The body of a condition. -/
def arunT (vs : List Nat) (i : Who) : TProg V ρ → (Nat → AV V) → (Nat → AV V) × ρ
  | .done r, a => (afinish vs i a, r)
  | .write x k v p, a => arunT vs i p (aput x k v a)
  | .fresh x k v p, a => arunT vs i p (aput x k v a)
  | .look x k p, a => arunT vs i (p ((a (2 * x)).cells k).1 (aask i x k a)) (alook i x k a)

theorem abs_put (d : V) (w : TW V) (x k : Nat) (v : V) (now : Nat) :
    abs viewsOf d (w.put x k v now) = aput x k v (abs viewsOf d w) := by
  apply abs_ext
  · intro y
    unfold aput
    rw [abs_even, abs_even]
    by_cases h : y = x
    · subst h
      rw [if_pos rfl]
      congr 1
      funext m
      show (((w.put y k v now).cell y m).1, (Ev.wrote y k :: w.log).count (.wrote y m)) = _
      rw [List.count_cons]
      by_cases hm : m = k
      · subst hm
        rw [if_pos rfl, beq_self_eq_true, if_pos rfl]
        congr 1
        unfold TW.put
        dsimp only
        rw [if_pos ⟨rfl, rfl⟩]
      · rw [if_neg hm, if_neg (by simpa using fun h => hm h.symm), Nat.add_zero]
        congr 1
        unfold TW.put
        dsimp only
        rw [if_neg (fun h => hm h.2)]
    · rw [if_neg (by omega)]
      congr 1
      funext m
      show (((w.put x k v now).cell y m).1, (Ev.wrote x k :: w.log).count (.wrote y m)) = _
      rw [List.count_cons, if_neg (by simpa using fun h1 _ => h h1.symm), Nat.add_zero]
      congr 1
      unfold TW.put
      dsimp only
      rw [if_neg (fun h' => h h'.1)]
  · intro i
    unfold aput
    rw [if_neg (own_ne i x), abs_own, abs_own]
    rfl

theorem abs_tick (d : V) (w : TW V) : abs viewsOf d w.tick = abs viewsOf d w := rfl

theorem abs_swap (d : V) (w : TW V) (i : Who) (cur : Nat) : abs viewsOf d (w.swap i cur) = abs viewsOf d w := rfl

theorem abs_fresh (d : V) (w : TW V) (x k : Nat) (v : V) : abs viewsOf d (w.fresh x k v) = aput x k v (abs viewsOf d w) :=
  abs_put d w.tick x k v w.counter

theorem abs_told (d : V) (w : TW V) (i : Who) (x k : Nat) (b : Bool) (hb : b = aask i x k (abs viewsOf d w)) :
    abs viewsOf d { w with log := .told i x k b :: w.log } = alook i x k (abs viewsOf d w) := by
  apply abs_ext
  · intro y
    unfold alook
    rw [if_neg (fun h => own_ne i y h.symm), abs_even, abs_even]
    rfl
  · intro j
    unfold alook
    rw [← hb]
    by_cases h : j = i
    · subst h
      rw [if_pos rfl, abs_own, abs_own]
      congr 1
      show heard j (.told j x k b :: w.log) = _
      unfold heard
      rw [List.filterMap_cons]
      simp
    · rw [if_neg (fun e => h (own_inj e)), abs_own, abs_own]
      congr 1
      show heard j (.told i x k b :: w.log) = _
      unfold heard
      rw [List.filterMap_cons]
      have h' : ¬ i = j := fun e => h e.symm
      simp only [if_neg h']

theorem abs_finish (d : V) (w : TW V) (i : Who) :
    abs viewsOf d (w.finish i) = afinish (stores (viewsOf i)) i (abs viewsOf d w) := by
  apply abs_ext
  · intro y
    unfold afinish
    rw [if_neg (fun h => own_ne i y h.symm), abs_even, abs_even]
    rfl
  · intro j
    unfold afinish
    by_cases h : j = i
    · subst h
      rw [if_pos rfl, abs_own, abs_own]
      congr 1
      funext x k
      rw [abs_even]
      show (if j = j ∧ x ∈ _ then _ else _) = _
      by_cases hx : x ∈ stores (viewsOf j)
      · rw [if_pos ⟨rfl, hx⟩, if_pos hx]
      · rw [if_neg (fun h => hx h.2), if_neg hx]
    · rw [if_neg (fun e => h (own_inj e)), abs_own, abs_own]
      congr 1
      funext x k
      show (if i = j ∧ x ∈ _ then _ else _) = _
      rw [if_neg (fun h' => h h'.1.symm)]

theorem value_abs (d : V) (w : TW V) (x k : Nat) : ((abs viewsOf d w (2 * x)).cells k).1 = (w.cell x k).1 := by rw [abs_even]

theorem ask_abs (d : V) {w : TW V} {i : Who} {x k last cur : Nat} (hx : Views (viewsOf i) x) (h1 : (w.cell x k).2 ≤ cur)
    (h2 : last < (w.cell x k).2 ↔ Changed i x k w.log) : w.ask x k last cur = aask i x k (abs viewsOf d w) := by
  have : w.ask x k last cur = true ↔ aask i x k (abs viewsOf d w) = true := by
    show isWithin (w.cell x k).2 last cur = true ↔ _
    rw [within_iff h1, h2, changed_seen k (mem_stores.mpr hx)]
    unfold aask
    rw [abs_even, abs_own, decide_eq_true_iff]
  exact Bool.eq_iff_iff.mpr this

/-! ## One batch -/

/-- Where the run of a task is. -/
inductive Phase where
  | before
  | ticked (cur : Nat)
  | inside (last cur : Nat)
  | after

/-- The task is there, and so is its counterpart without a clock. -/
inductive At (t : Nat) (B : List TypeInfo) : Status (TW V) ε → Status (Nat → AV V) ε → Phase → Prop
  | todo {s : Sys V ε} : s.Within B → At t B (.todo (s.prog t)) (.todo (asys (stores B) t s)) .before
  | going {s : Sys V ε} : s.Within B → At t B (.going (s.prog t)) (.going (asys (stores B) t s)) .before
  | ticked {cur p} : p.Within B → At t B (.going (swapped t cur p)) (.going (aswapped (stores B) t p)) (.ticked cur)
  | inside {last cur p} : p.Within B → At t B (.going (body t last cur p)) (.going (abody (stores B) t p)) (.inside last cur)
  | ending {r} : At t B (.going (.done r)) (.going (.done r)) .after
  | ended {r} : At t B (.ended r) (.ended r) .after
  | plainEnded {r} : At t B (.ended r) (.ended r) .before
  | skipped : At t B .skipped .skipped .before

/-- What is known of the world about a task. -/
def Facts (viewsOf : Who → List TypeInfo) (c0 : Nat) (w : TW V) (t : Nat) : Phase → Prop
  | .before => w.last (.system t) < c0 ∧ Right viewsOf w (.system t) ∧ ∀ x k, Views (viewsOf (.system t)) x → (w.cell x k).2 < c0
  | .ticked cur => w.last (.system t) < c0 ∧ Right viewsOf w (.system t)
    ∧ (∀ x k, Views (viewsOf (.system t)) x → (w.cell x k).2 < c0) ∧ c0 ≤ cur ∧ cur < w.counter
  | .inside last cur => w.last (.system t) = cur ∧ last < cur ∧ c0 ≤ cur ∧ ∀ x k, Views (viewsOf (.system t)) x →
    (w.cell x k).2 ≤ cur ∧ (last < (w.cell x k).2 ↔ Changed (.system t) x k w.log)
  | .after => Right viewsOf w (.system t)

/-- What a task with the views `B` may write. -/
def CanWrite (B : List TypeInfo) (x : Nat) : Prop := ∃ b ∈ B, (b.exclusive = true ∧ b.storage = x) ∨ b.storage = allStorages

/-- The systems are different and none writes what another views. -/
def Apart (viewsOf : Who → List TypeInfo) (t u : Nat) : Prop :=
  t ≠ u ∧ ∀ x, (CanWrite (viewsOf (.system t)) x → ¬ Views (viewsOf (.system u)) x)
    ∧ (CanWrite (viewsOf (.system u)) x → ¬ Views (viewsOf (.system t)) x)

theorem Apart.symm {t u : Nat} (h : Apart viewsOf t u) : Apart viewsOf u t := ⟨h.1.symm, fun x => ⟨(h.2 x).2, (h.2 x).1⟩⟩

structure Pool (viewsOf : Who → List TypeInfo) (c0 : Nat) (L : List Nat) (w : TW V) (ts : List (Task (TW V) ε))
    (as : List (Task (Nat → AV V) ε)) : Prop where
  len : ts.length = L.length
  alen : as.length = L.length
  same : as.map (fun t => (t.index, t.main)) = ts.map fun t => (t.index, t.main)
  task : ∀ (n : Nat) t a u, ts[n]? = some t → as[n]? = some a → L[n]? = some u →
    ∃ ph, At u (viewsOf (.system u)) t.status a.status ph ∧ Facts viewsOf c0 w u ph
  out : ∀ i, (∀ t ∈ L, i ≠ .system t) → w.last i < c0 ∧ Right viewsOf w i
  stamps : ∀ x k, (w.cell x k).2 < w.counter
  lasts : ∀ i, w.last i < w.counter
  clock : c0 ≤ w.counter
  exact : Exact w.log

/-- A step of the system `t`, for the others. -/
structure Frame (viewsOf : Who → List TypeInfo) (c0 : Nat) (t : Nat) (w w' : TW V) : Prop where
  clock : w.counter ≤ w'.counter
  lasts : ∀ i, i ≠ .system t → w'.last i = w.last i
  cell : ∀ i, i ≠ .system t → ∀ x k, ((w'.cell x k = w.cell x k) ∧ (Changed i x k w'.log ↔ Changed i x k w.log))
    ∨ (CanWrite (viewsOf (.system t)) x ∧ c0 ≤ (w'.cell x k).2 ∧ Changed i x k w'.log)

theorem Facts.frame {c0 : Nat} {t u : Nat} {w w' : TW V} (hf : Frame viewsOf c0 t w w') (ha : Apart viewsOf t u) {ph : Phase}
    (h : Facts viewsOf c0 w u ph) : Facts viewsOf c0 w' u ph := by
  have hne : Who.system u ≠ .system t := by
    intro h; injection h with h; exact ha.1 h.symm
  have hl := hf.lasts _ hne
  have hc : ∀ x k, Views (viewsOf (.system u)) x → w'.cell x k = w.cell x k
      ∧ (Changed (.system u) x k w'.log ↔ Changed (.system u) x k w.log) := by
    intro x k hv
    rcases hf.cell _ hne x k with h | h
    · exact h
    · exact absurd hv ((ha.2 x).1 h.1)
  have hr : Right viewsOf w (.system u) → Right viewsOf w' (.system u) := by
    intro hr x k hv
    rw [hl, (hc x k hv).1, (hc x k hv).2]
    exact hr x k hv
  have hclk := hf.clock
  cases ph with
  | before =>
    obtain ⟨h1, h2, h3⟩ := h
    exact ⟨by rw [hl]; exact h1, hr h2, fun x k hv => by rw [(hc x k hv).1]; exact h3 x k hv⟩
  | ticked cur =>
    obtain ⟨h1, h2, h3, h4, h5⟩ := h
    exact ⟨by rw [hl]; exact h1, hr h2, fun x k hv => by rw [(hc x k hv).1]; exact h3 x k hv, h4, Nat.lt_of_lt_of_le h5 hclk⟩
  | inside last cur =>
    obtain ⟨h1, h2, h3, h4⟩ := h
    refine ⟨by rw [hl]; exact h1, h2, h3, fun x k hv => ?_⟩
    rw [(hc x k hv).1, (hc x k hv).2]
    exact h4 x k hv
  | after => exact hr h

theorem Pool.update {c0 : Nat} {L : List Nat} (hL : L.Pairwise (Apart viewsOf)) {w w' : TW V} {ts : List (Task (TW V) ε)}
    {as : List (Task (Nat → AV V) ε)} (h : Pool viewsOf c0 L w ts as) {n : Nat} {t : Task (TW V) ε} {a : Task (Nat → AV V) ε} {u : Nat}
    (ht : ts[n]? = some t) (ha : as[n]? = some a) (hu : L[n]? = some u) {st : Status (TW V) ε} {ast : Status (Nat → AV V) ε}
    (hf : Frame viewsOf c0 u w w') (hst : ∃ ph, At u (viewsOf (.system u)) st ast ph ∧ Facts viewsOf c0 w' u ph)
    (hs : ∀ x k, (w'.cell x k).2 < w'.counter) (hl : w'.last (.system u) < w'.counter) (he : Exact w'.log) :
    Pool viewsOf c0 L w' (ts.set n { t with status := st }) (as.set n { a with status := ast }) := by
  have hpair : ∀ {a b : Nat} {x y : Nat}, a ≠ b → L[a]? = some x → L[b]? = some y → Apart viewsOf x y := by
    intro a b x y hab ha hb
    obtain ⟨la, ea⟩ := List.getElem?_eq_some_iff.mp ha
    obtain ⟨lb, eb⟩ := List.getElem?_eq_some_iff.mp hb
    have hp := List.pairwise_iff_getElem.mp hL
    rcases Nat.lt_or_gt_of_ne hab with hlt | hlt
    · have := hp a b la lb hlt
      rw [ea, eb] at this
      exact this
    · have := hp b a lb la hlt
      rw [ea, eb] at this
      exact this.symm
  refine ⟨by rw [List.length_set]; exact h.len, by rw [List.length_set]; exact h.alen, ?_, ?_, ?_, hs, ?_,
    Nat.le_trans h.clock hf.clock, he⟩
  · rw [List.map_set, List.map_set, h.same]
    congr 1
    have := congrArg (fun l : List (Nat × Bool) => l[n]?) h.same
    simp only [List.getElem?_map, ht, ha] at this
    exact Option.some.inj this
  · intro m t' a' u' ht' ha' hu'
    rcases set_get ht' with ⟨rfl, rfl, _⟩ | ⟨hm, ht'⟩
    · rw [hu] at hu'; cases hu'
      rcases set_get ha' with ⟨_, rfl, _⟩ | ⟨hm, _⟩
      · exact hst
      · exact absurd rfl hm
    · rcases set_get ha' with ⟨e, _⟩ | ⟨_, ha'⟩
      · exact absurd e hm
      obtain ⟨ph, h1, h2⟩ := h.task m t' a' u' ht' ha' hu'
      exact ⟨ph, h1, h2.frame hf (hpair hm.symm hu hu')⟩
  · intro i hi
    have hne : i ≠ .system u := hi u (List.mem_of_getElem? hu)
    obtain ⟨h1, h2⟩ := h.out i hi
    refine ⟨by rw [hf.lasts i hne]; exact h1, ?_⟩
    intro x k hv
    rw [hf.lasts i hne]
    rcases hf.cell i hne x k with ⟨e1, e2⟩ | ⟨_, e2, e3⟩
    · rw [e1, e2]; exact h2 x k hv
    · exact ⟨fun _ => e3, fun _ => Nat.lt_of_lt_of_le h1 e2⟩
  · intro i
    by_cases hi : i = .system u
    · rw [hi]; exact hl
    · rw [hf.lasts i hi]; exact Nat.lt_of_lt_of_le (h.lasts i) hf.clock

theorem Frame.refl (c0 t : Nat) (w : TW V) : Frame viewsOf c0 t w w :=
  ⟨Nat.le_refl _, fun _ _ => rfl, fun _ _ _ _ => .inl ⟨rfl, Iff.rfl⟩⟩

theorem Frame.put {c0 t : Nat} {w : TW V} {x k : Nat} {v : V} {now : Nat} (hx : CanWrite (viewsOf (.system t)) x) (hn : c0 ≤ now) :
    Frame viewsOf c0 t w (w.put x k v now) := by
  refine ⟨Nat.le_refl _, fun _ _ => rfl, ?_⟩
  intro i _ y m
  rcases cell_put w x k v now y m with ⟨e, rfl, rfl⟩ | ⟨hne, e⟩
  · exact .inr ⟨hx, by rw [e]; exact hn, changed_wrote.mpr (.inl ⟨rfl, rfl⟩)⟩
  · refine .inl ⟨e, ?_⟩
    rw [changed_put]
    constructor
    · rintro (⟨rfl, rfl⟩ | h)
      · exact absurd ⟨rfl, rfl⟩ hne
      · exact h
    · exact .inr

theorem Frame.tick {c0 t : Nat} {w w' : TW V} (h : Frame viewsOf c0 t w.tick w') : Frame viewsOf c0 t w w' :=
  ⟨Nat.le_trans (Nat.le_succ _) h.clock, h.lasts, h.cell⟩

theorem sys_done {t : Nat} {s : Sys V ε} {r : Except ε Unit} (h : s.prog t = .done r) : s = .plain r := by
  cases s with
  | plain r' => unfold Sys.prog at h; cases h; rfl
  | tracked p => unfold Sys.prog at h; cases h

theorem Pool.step (d : V) {c0 : Nat} {L : List Nat} (hL : L.Pairwise (Apart viewsOf)) {w w' : TW V} {ts ts' : List (Task (TW V) ε)}
    {as : List (Task (Nat → AV V) ε)} (h : Pool viewsOf c0 L w ts as) (hs : Step w ts w' ts') :
    ∃ as', Pool viewsOf c0 L w' ts' as' ∧ Step (abs viewsOf d w) as (abs viewsOf d w') as' := by
  have hget : ∀ {n : Nat} {t : Task (TW V) ε}, ts[n]? = some t → ∃ u a, L[n]? = some u ∧ as[n]? = some a ∧ a.main = t.main := by
    intro n t ht
    have hn := (List.getElem?_eq_some_iff.mp ht).1
    have hl : n < L.length := by rw [← h.len]; exact hn
    have hal : n < as.length := by rw [h.alen]; exact hl
    refine ⟨L[n], as[n], List.getElem?_eq_getElem hl, List.getElem?_eq_getElem hal, ?_⟩
    have := congrArg (fun l : List (Nat × Bool) => l[n]?) h.same
    simp only [List.getElem?_map, ht, List.getElem?_eq_getElem hal] at this
    exact congrArg Prod.snd (Option.some.inj this)
  cases hs with
  | start n p ht hst =>
    obtain ⟨u, a, hu, ha, hmain⟩ := hget ht
    obtain ⟨ph, h1, h2⟩ := h.task n _ a u ht ha hu
    rw [hst] at h1
    generalize hast : a.status = ast at h1
    cases h1 with
    | todo hw =>
      exact ⟨_, h.update hL ht ha hu (.refl c0 u w) ⟨_, .going hw, h2⟩ h.stamps (h.lasts _) h.exact, .start n _ ha hast⟩
  | finish n r ht hst =>
    obtain ⟨u, a, hu, ha, hmain⟩ := hget ht
    obtain ⟨ph, h1, h2⟩ := h.task n _ a u ht ha hu
    rw [hst] at h1
    generalize hg : (Status.going (Prog.done r) : Status (TW V) ε) = st at h1
    generalize hast : a.status = ast at h1
    cases h1 with
    | todo _ => cases hg
    | @going s _ =>
      injection hg with hg
      have hs := sys_done hg.symm
      subst hs
      exact ⟨_, h.update hL ht ha hu (.refl c0 u w) ⟨_, .plainEnded, h2⟩ h.stamps (h.lasts _) h.exact, .finish n _ ha hast⟩
    | ticked _ => unfold swapped at hg; cases hg
    | @inside last cur p _ => cases p <;> (unfold body at hg; cases hg)
    | ending =>
      cases hg
      exact ⟨_, h.update hL ht ha hu (.refl c0 u w) ⟨_, .ended, h2⟩ h.stamps (h.lasts _) h.exact, .finish n _ ha hast⟩
    | ended => cases hg
    | plainEnded => cases hg
    | skipped => cases hg
  | skip n p e ht hst hm0 ht' hm' he' =>
    obtain ⟨u, a, hu, ha, hmain⟩ := hget ht
    obtain ⟨ph, h1, h2⟩ := h.task n _ a u ht ha hu
    rw [hst] at h1
    generalize hast : a.status = ast at h1
    cases h1 with
    | todo _ =>
      obtain ⟨m, hm, rfl⟩ := List.getElem_of_mem ht'
      have htm : ts[m]? = some ts[m] := List.getElem?_eq_getElem hm
      obtain ⟨u', a', hu', ha', hmain'⟩ := hget htm
      obtain ⟨ph', g1, g2⟩ := h.task m _ a' u' htm ha' hu'
      rw [he'] at g1
      have hae : a'.status = .ended (.error e) := by
        generalize hast' : a'.status = ast' at g1
        cases g1 <;> rfl
      exact ⟨_, h.update hL ht ha hu (.refl c0 u w) ⟨_, .skipped, h2⟩ h.stamps (h.lasts _) h.exact,
        .skip n _ e ha hast (by rw [hmain]; exact hm0) (List.mem_of_getElem? ha') (by rw [hmain']; exact hm') hae⟩
  | act n f g ht hst =>
    obtain ⟨u, a, hu, ha, hmain⟩ := hget ht
    obtain ⟨ph, h1, h2⟩ := h.task n _ a u ht ha hu
    rw [hst] at h1
    generalize hg : (Status.going (Prog.act f g) : Status (TW V) ε) = st at h1
    generalize hast : a.status = ast at h1
    cases h1 with
    | todo _ => cases hg
    | @going s hw =>
      cases s with
      | plain r => unfold Sys.prog at hg; cases hg
      | tracked p =>
        unfold Sys.prog at hg
        cases hg
        obtain ⟨f1, f2, f3⟩ := h2
        refine ⟨_, ?_, .act n _ _ ha hast⟩
        refine h.update hL ht ha hu (Frame.refl c0 u w.tick).tick ⟨.ticked w.counter, .ticked hw, f1, f2, f3, h.clock, Nat.lt_succ_self _⟩
          (fun x k => Nat.lt_succ_of_lt (h.stamps x k)) (Nat.lt_succ_of_lt (h.lasts _)) h.exact
    | @ticked cur p hw =>
      unfold swapped at hg
      cases hg
      obtain ⟨f1, f2, f3, f4, f5⟩ := h2
      have hsw : (w.swap (.system u) cur).last (.system u) = cur := if_pos rfl
      refine ⟨_, ?_, .act n _ _ ha hast⟩
      refine h.update hL ht ha hu ⟨Nat.le_refl _, fun i hi => if_neg hi, fun _ _ _ _ => .inl ⟨rfl, Iff.rfl⟩⟩
        ⟨.inside (w.last (.system u)) cur, .inside hw, hsw, Nat.lt_of_lt_of_le f1 f4, f4, ?_⟩ h.stamps (by rw [hsw]; exact f5) h.exact
      intro x k hv
      exact ⟨Nat.le_of_lt (Nat.lt_of_lt_of_le (f3 x k hv) f4), f2 x k hv⟩
    | @inside last cur p hw =>
      obtain ⟨f1, f2, f3, f4⟩ := h2
      have hcl : cur < w.counter := by rw [← f1]; exact h.lasts _
      cases hw with
      | done r =>
        unfold body at hg
        cases hg
        refine ⟨_, ?_, by rw [abs_finish]; exact .act n _ _ ha hast⟩
        refine h.update hL ht ha hu ⟨Nat.le_refl _, fun _ _ => rfl, ?_⟩ ⟨.after, .ending, ?_⟩ h.stamps (h.lasts _) (exact_ended h.exact)
        · intro i hi x k
          refine .inl ⟨rfl, ?_⟩
          show Changed i x k (.ended _ :: w.log) ↔ _
          rw [changed_ended]
          exact ⟨fun h => h.2, fun h => ⟨hi, h⟩⟩
        · intro x k hv
          show w.last _ < (w.cell x k).2 ↔ Changed _ x k (.ended _ :: w.log)
          rw [f1, changed_ended]
          exact ⟨fun hl => absurd (f4 x k hv).1 (Nat.not_le.mpr hl), fun hl => absurd rfl hl.1⟩
      | @write x k v p hx hp =>
        unfold body at hg
        cases hg
        obtain ⟨b, hb, hx1, hx2⟩ := hx
        refine ⟨_, ?_, by rw [abs_put]; exact .act n _ _ ha hast⟩
        refine h.update hL ht ha hu (Frame.put ⟨b, hb, .inl ⟨hx1, hx2⟩⟩ f3) ⟨.inside last cur, .inside hp, f1, f2, f3, ?_⟩ ?_ (h.lasts _)
          (exact_wrote h.exact)
        · intro y m hv
          rw [changed_put]
          rcases cell_put w x k v cur y m with ⟨e, rfl, rfl⟩ | ⟨hne, e⟩
          · rw [e]; exact ⟨Nat.le_refl _, fun _ => .inl ⟨rfl, rfl⟩, fun _ => f2⟩
          · rw [e]
            refine ⟨(f4 y m hv).1, fun hl => .inr ((f4 y m hv).2.mp hl), ?_⟩
            rintro (⟨rfl, rfl⟩ | hl)
            · exact absurd ⟨rfl, rfl⟩ hne
            · exact (f4 y m hv).2.mpr hl
        · intro y m
          rcases cell_put w x k v cur y m with ⟨e, _⟩ | ⟨_, e⟩
          · rw [e]; exact hcl
          · rw [e]; exact h.stamps y m
      | @fresh x k v p hx hx' hp =>
        unfold body at hg
        cases hg
        obtain ⟨b, hb, hx1⟩ := hx
        refine ⟨_, ?_, by rw [abs_fresh]; exact .act n _ _ ha hast⟩
        refine h.update hL ht ha hu (Frame.put (w := w.tick) ⟨b, hb, .inr hx1⟩ h.clock).tick ⟨.inside last cur, .inside hp, f1, f2, f3, ?_⟩ ?_
          (Nat.lt_succ_of_lt (h.lasts _)) (exact_wrote h.exact)
        · intro y m hv
          show ((w.tick.put x k v w.counter).cell y m).2 ≤ cur ∧ (last < ((w.tick.put x k v w.counter).cell y m).2
            ↔ Changed _ y m (w.tick.put x k v w.counter).log)
          rw [changed_put]
          rcases cell_put w.tick x k v w.counter y m with ⟨e, rfl, rfl⟩ | ⟨hne, e⟩
          · exact absurd hv hx'
          · rw [e]
            refine ⟨(f4 y m hv).1, fun hl => .inr ((f4 y m hv).2.mp hl), ?_⟩
            rintro (⟨rfl, rfl⟩ | hl)
            · exact absurd ⟨rfl, rfl⟩ hne
            · exact (f4 y m hv).2.mpr hl
        · intro y m
          show ((w.tick.put x k v w.counter).cell y m).2 < w.counter + 1
          rcases cell_put w.tick x k v w.counter y m with ⟨e, _⟩ | ⟨_, e⟩
          · rw [e]; exact Nat.lt_succ_self _
          · rw [e]; exact Nat.lt_succ_of_lt (h.stamps y m)
      | @look x k p hx hp =>
        unfold body at hg
        cases hg
        have hask := ask_abs d hx (f4 x k hx).1 (f4 x k hx).2
        refine ⟨_, ?_, by unfold TW.look; rw [abs_told d w (.system u) x k _ hask]; exact .act n _ _ ha hast⟩
        rw [value_abs, ← hask]
        refine h.update hL ht ha hu ⟨Nat.le_refl _, fun _ _ => rfl, ?_⟩ ⟨.inside last cur, .inside (hp _ _), f1, f2, f3, ?_⟩ h.stamps
          (h.lasts _) (exact_told h.exact ?_)
        · intro i _ y m
          exact .inl ⟨rfl, changed_told⟩
        · intro y m hv
          refine ⟨(f4 y m hv).1, ?_⟩
          show last < (w.cell y m).2 ↔ Changed _ y m (.told _ x k _ :: w.log)
          rw [changed_told]
          exact (f4 y m hv).2
        · show isWithin (w.cell x k).2 last cur = true ↔ _
          rw [within_iff (f4 x k hx).1]
          exact (f4 x k hx).2
    | ending => cases hg
    | ended => cases hg
    | plainEnded => cases hg
    | skipped => cases hg

theorem Pool.steps (d : V) {c0 : Nat} {L : List Nat} (hL : L.Pairwise (Apart viewsOf)) {w w' : TW V} {ts ts' : List (Task (TW V) ε)}
    {as : List (Task (Nat → AV V) ε)} (h : Pool viewsOf c0 L w ts as) (hs : Steps w ts w' ts') :
    ∃ as', Pool viewsOf c0 L w' ts' as' ∧ Steps (abs viewsOf d w) as (abs viewsOf d w') as' := by
  induction hs with
  | refl => exact ⟨as, h, .refl⟩
  | tail _ hs ih =>
    obtain ⟨as1, k1, k2⟩ := ih
    obtain ⟨as2, k3, k4⟩ := k1.step d hL hs
    exact ⟨as2, k3, .tail k2 k4⟩

/-- The counterpart of a task that has not started. -/
theorem Pool.init {L : List Nat} {w : TW V} (h : Rest viewsOf w) {ts : List (Task (TW V) ε)} {as : List (Task (Nat → AV V) ε)}
    (hl : ts.length = L.length) (hs : as.map (fun t => (t.index, t.main)) = ts.map fun t => (t.index, t.main))
    (hts : ∀ (n : Nat) t a u, ts[n]? = some t → as[n]? = some a → L[n]? = some u → ∃ s : Sys V ε, s.Within (viewsOf (.system u))
      ∧ t.status = .todo (s.prog u) ∧ a.status = .todo (asys (stores (viewsOf (.system u))) u s)) :
    Pool viewsOf w.counter L w ts as := by
  have hl' : as.length = L.length := by
    have := congrArg List.length hs
    rw [List.length_map, List.length_map] at this
    rw [this, hl]
  refine ⟨hl, hl', hs, ?_, fun i _ => ⟨h.lasts i, h.right i⟩, h.stamps, h.lasts, Nat.le_refl _, h.exact⟩
  intro n t a u ht ha hu
  obtain ⟨s, hs1, hs2, hs3⟩ := hts n t a u ht ha hu
  exact ⟨.before, by rw [hs2, hs3]; exact .todo hs1, h.lasts _, h.right _, fun x k _ => h.stamps x k⟩

/-- A task and its counterpart are over with the same result. -/
theorem At.over {t : Nat} {B : List TypeInfo} {st : Status (TW V) ε} {ast : Status (Nat → AV V) ε} {ph : Phase} (h : At t B st ast ph) :
    (st = .skipped ↔ ast = .skipped) ∧ ∀ r, st = .ended r ↔ ast = .ended r := by
  cases h <;> refine ⟨⟨fun h => ?_, fun h => ?_⟩, fun r => ⟨fun h => ?_, fun h => ?_⟩⟩ <;> first
    | exact h
    | (cases h; done)
    | (cases h; rfl)

theorem Pool.final {c0 : Nat} {L : List Nat} {w : TW V} {ts : List (Task (TW V) ε)} {as : List (Task (Nat → AV V) ε)}
    (h : Pool viewsOf c0 L w ts as) (ho : ∀ t ∈ ts, t.over) : Rest viewsOf w := by
  refine ⟨h.stamps, h.lasts, ?_, h.exact⟩
  intro i
  by_cases hi : ∀ t ∈ L, i ≠ .system t
  · exact (h.out i hi).2
  · have : ∃ t ∈ L, i = .system t := Classical.byContradiction fun hc => hi fun t ht he => hc ⟨t, ht, he⟩
    obtain ⟨u, hu, rfl⟩ := this
    obtain ⟨n, hn, hu⟩ := List.getElem_of_mem hu
    have hn' : n < ts.length := by rw [h.len]; exact hn
    have hu' : L[n]? = some u := by rw [List.getElem?_eq_getElem hn, hu]
    have ht : ts[n]? = some ts[n] := List.getElem?_eq_getElem hn'
    have hna : n < as.length := by rw [h.alen]; exact hn
    obtain ⟨ph, h1, h2⟩ := h.task n _ as[n] u ht (List.getElem?_eq_getElem hna) hu'
    have hov := ho ts[n] (List.getElem_mem hn')
    cases ph with
    | before => exact h2.2.1
    | after => exact h2
    | ticked cur =>
      generalize as[n].status = ast at h1
      rcases hov with e | ⟨r, e⟩ <;> (rw [e] at h1; cases h1)
    | inside last cur =>
      generalize as[n].status = ast at h1
      rcases hov with e | ⟨r, e⟩ <;> (rw [e] at h1; cases h1)

/-! ## From the workload to its batches -/

/-- A batch runs these systems. -/
structure BatchOf {α : Type} (val : Nat → α) (b : Batches (TW V) ε) (table : List α) (x : Option Nat × List Nat)
    (r : Option Nat × List (Option Nat)) (L : List (WSys (TW V) ε)) : Prop where
  jobs : b.batchJobs table x r = L.map fun s => some (val s.typeId, s.runIf)
  len : x.2.length = r.2.length
  main : x.1 = none → r.1 = none

variable {sysOf : Nat → Sys V ε} {α : Type} {val : Nat → α}

theorem job_some {b : Batches (TW V) ε} {table : List α} {i : Nat} {r : Option Nat} {j : α × Option (Cond (TW V) ε)}
    (h : b.job table i r = some j) : table[i]? = some j.1 ∧ b.cond r = some j.2 := by
  unfold Batches.job at h
  split at h
  · rename_i h1 h2
    cases h
    exact ⟨h1, h2⟩
  · cases h

theorem shouldRun_rest {b : Batches (TW V) ε} {names : List Label} {i r : Option Nat} {c : Option (Cond (TW V) ε)}
    (hc : b.cond r = some c) (hI : ∀ d, c = some d → IsCond viewsOf d) {w w' : TW V} {res} (hw : Rest viewsOf w)
    (h : shouldRun b names i r w = .ok (w', res)) : Rest viewsOf w' := by
  unfold shouldRun at h
  cases r with
  | none => cases h; exact hw
  | some k =>
    have hc' : b.systemsRunIf[k]?.map some = some c := hc
    dsimp only at h
    cases hk : b.systemsRunIf[k]? with
    | none => rw [hk] at h; cases h
    | some d =>
      rw [hk] at h hc'
      cases hc'
      have hr := isCond_rest (hI d rfl) hw
      dsimp only at h
      rcases hd : d w with ⟨w1, e | y⟩
      · rw [hd] at h hr
        dsimp only at h hr
        split at h
        · cases h
        · split at h
          · cases h
          · cases h; exact hr
      · rw [hd] at h hr
        cases h
        exact hr

theorem conditions_rest {b : Batches (TW V) ε} {names : List Label} : ∀ (ps : List (Nat × Option Nat)) {w w' : TW V} {res},
    (∀ p ∈ ps, ∃ c, b.cond p.2 = some c ∧ ∀ d, c = some d → IsCond viewsOf d) → Rest viewsOf w →
    conditions b names ps w = .ok (w', res) → Rest viewsOf w'
  | [], _, _, _, _, hw, h => by unfold conditions at h; cases h; exact hw
  | p :: ps, w, w', res, hc, hw, h => by
    obtain ⟨c, hc1, hc2⟩ := hc p (by simp)
    unfold conditions at h
    split at h
    · cases h
    · rename_i h1
      cases h
      exact shouldRun_rest hc1 hc2 hw h1
    · rename_i h1
      have hr := shouldRun_rest hc1 hc2 hw h1
      have ih := fun w' res => conditions_rest (names := names) ps (w' := w') (res := res) (fun q hq => hc q (List.mem_cons_of_mem _ hq)) hr
      split at h
      · cases h
      · rename_i h2; cases h; exact ih _ _ h2
      · rename_i h2; cases h; exact ih _ _ h2

theorem BatchOf.cond_main {b : Batches (TW V) ε} {table : List α} {x r} {L : List (WSys (TW V) ε)} (h : BatchOf val b table x r L)
    (hc : ∀ s ∈ L, ∀ c, s.runIf = some c → IsCond viewsOf c) : ∃ c, b.cond r.1 = some c ∧ ∀ d, c = some d → IsCond viewsOf d := by
  have hj := h.jobs
  unfold Batches.batchJobs at hj
  cases hx : x.1 with
  | none =>
    rw [h.main hx]
    exact ⟨none, rfl, fun d hd => by cases hd⟩
  | some i =>
    rw [hx] at hj
    have hm : b.job table i r.1 ∈ L.map fun s => some (val s.typeId, s.runIf) := by
      rw [← hj]; simp
    obtain ⟨s, hs, he⟩ := List.mem_map.mp hm
    obtain ⟨_, h2⟩ := job_some he.symm
    exact ⟨_, h2, hc s hs⟩

theorem BatchOf.cond_pool {b : Batches (TW V) ε} {table : List α} {x r} {L : List (WSys (TW V) ε)} (h : BatchOf val b table x r L)
    (hc : ∀ s ∈ L, ∀ c, s.runIf = some c → IsCond viewsOf c) :
    ∀ p ∈ x.2.zip r.2, ∃ c, b.cond p.2 = some c ∧ ∀ d, c = some d → IsCond viewsOf d := by
  intro p hp
  have hj := h.jobs
  unfold Batches.batchJobs at hj
  have hm : b.job table p.1 p.2 ∈ L.map fun s => some (val s.typeId, s.runIf) := by
    rw [← hj]
    exact List.mem_append_right _ (List.mem_map.mpr ⟨p, hp, rfl⟩)
  obtain ⟨s, hs, he⟩ := List.mem_map.mp hm
  obtain ⟨_, h2⟩ := job_some he.symm
  exact ⟨_, h2, hc s hs⟩

theorem batchConditions_rest {b : Batches (TW V) ε} {names : List Label} {table : List α} {x r} {L : List (WSys (TW V) ε)}
    (h : BatchOf val b table x r L) (hc : ∀ s ∈ L, ∀ c, s.runIf = some c → IsCond viewsOf c) {w w' : TW V} {res}
    (hw : Rest viewsOf w) (he : batchConditions b names x r w = .ok (w', res)) : Rest viewsOf w' := by
  obtain ⟨c, hc1, hc2⟩ := h.cond_main hc
  have hp := h.cond_pool hc
  unfold batchConditions at he
  split at he
  · cases he
  · rename_i h1; cases he; exact shouldRun_rest hc1 hc2 hw h1
  · rename_i h1
    have hr := shouldRun_rest hc1 hc2 hw h1
    split at he
    · cases he
    · rename_i h2; cases he; exact conditions_rest _ hp hr h2
    · rename_i h2; cases he; exact conditions_rest _ hp hr h2

/-- The tasks are systems of these indices, in this order, not started. -/
structure Start {W : Type} (progs : List (Prog W ε)) (ts : List (Task W ε)) (l : List Nat) : Prop where
  sub : (ts.map (·.index)).Sublist l
  todo : ∀ t ∈ ts, ∃ p, progs[t.index]? = some p ∧ t.status = .todo p

theorem task_start {W : Type} {progs : List (Prog W ε)} {m : Bool} {i : Nat} {t : Task W ε} (h : task progs m i = .ok t) :
    t.index = i ∧ ∃ p, progs[t.index]? = some p ∧ t.status = .todo p := by
  unfold task at h
  split at h
  · rename_i p hp; cases h; exact ⟨rfl, p, hp, rfl⟩
  · cases h

theorem poolTasks_start {W : Type} {progs : List (Prog W ε)} : ∀ (l : List (Nat × Bool)) {ts : List (Task W ε)},
    poolTasks progs l = .ok ts → Start progs ts (l.map (·.1))
  | [], ts, h => by
    unfold poolTasks at h; cases h
    exact ⟨.slnil, fun t ht => absurd ht List.not_mem_nil⟩
  | (i, false) :: l, ts, h => by
    unfold poolTasks at h
    have := poolTasks_start l h
    exact ⟨this.sub.cons _, this.todo⟩
  | (i, true) :: l, ts, h => by
    unfold poolTasks at h
    simp only [bind, Except.bind] at h
    split at h
    · cases h
    · rename_i t ht
      split at h
      · cases h
      · rename_i ts' hts
        cases h
        have ih := poolTasks_start l hts
        obtain ⟨h1, h2⟩ := task_start ht
        refine ⟨?_, ?_⟩
        · simp only [List.map_cons, h1]
          exact ih.sub.cons_cons _
        · intro t' ht'
          rcases List.mem_cons.mp ht' with rfl | ht'
          · exact h2
          · exact ih.todo t' ht'

theorem tasks_start {W : Type} {progs : List (Prog W ε)} {x : Option Nat × List (Nat × Bool)} {ts : List (Task W ε)}
    (h : tasks progs x = .ok ts) : Start progs ts (x.1.toList ++ x.2.map (·.1)) := by
  unfold tasks at h
  split at h
  · rename_i hx; rw [hx]; exact poolTasks_start _ h
  · rename_i i hx
    rw [hx]
    simp only [bind, Except.bind] at h
    split at h
    · cases h
    · rename_i t ht
      split at h
      · cases h
      · rename_i ts' hts
        cases h
        have ih := poolTasks_start _ hts
        obtain ⟨h1, h2⟩ := task_start ht
        refine ⟨?_, ?_⟩
        · simp only [List.map_cons, h1]
          exact ih.sub.cons_cons _
        · intro t' ht'
          rcases List.mem_cons.mp ht' with rfl | ht'
          · exact h2
          · exact ih.todo t' ht'

theorem zip_fst {α β : Type} : ∀ (l : List α) (m : List β), ((l.zip m).map (·.1)).Sublist l
  | [], _ => by simp
  | _ :: _, [] => by simp
  | a :: l, b :: m => (zip_fst l m).cons_cons a

theorem split_sub {x : Option Nat × List Nat} {m : Bool} {flags : List Bool} {s : Option Nat × List (Nat × Bool)}
    (h : split x m flags = .ok s) : (s.1.toList ++ s.2.map (·.1)).Sublist (x.1.toList ++ x.2) := by
  rcases x with ⟨a, x⟩
  have rest : ∀ {l : List Nat}, l.Sublist x → l.Sublist (a.toList ++ x) := fun h => h.trans (List.sublist_append_right _ _)
  unfold split at h
  cases a with
  | none =>
    cases x with
    | nil => cases h; exact .slnil
    | cons i x =>
      rcases flags with _ | ⟨_ | _, fs⟩
      · cases h
      · cases h; exact (zip_fst _ _).cons_cons _
      · cases h; exact (zip_fst _ _).cons_cons _
  | some j =>
    cases m with
    | false =>
      cases x with
      | nil => cases h; exact rest (List.nil_sublist _)
      | cons i x =>
        rcases flags with _ | ⟨_ | _, fs⟩
        · cases h
        · cases h; exact rest ((zip_fst _ _).cons_cons _)
        · cases h; exact rest ((zip_fst _ _).cons_cons _)
    | true => cases h; exact (zip_fst _ _).cons_cons _

theorem BatchOf.indices {b : Batches (TW V) ε} {table : List α} {x r} {L : List (WSys (TW V) ε)} (h : BatchOf val b table x r L) :
    (x.1.toList ++ x.2).map (fun i => table[i]?) = L.map fun s => some (val s.typeId) := by
  have hj := congrArg (List.map (Option.map Prod.fst)) h.jobs
  rw [List.map_map] at hj
  refine Eq.trans ?_ hj
  have hall : ∀ j ∈ b.batchJobs table x r, ∃ y, j = some y := by
    intro j hj
    rw [h.jobs] at hj
    obtain ⟨s, _, rfl⟩ := List.mem_map.mp hj
    exact ⟨_, rfl⟩
  have hjob : ∀ i r', b.job table i r' ∈ b.batchJobs table x r → (b.job table i r').map Prod.fst = table[i]? := by
    intro i r' hm
    obtain ⟨y, hy⟩ := hall _ hm
    rw [hy, (job_some hy).1]
    rfl
  unfold Batches.batchJobs at hjob ⊢
  rw [List.map_append, List.map_append, List.map_map]
  congr 1
  · cases hx : x.1 with
    | none => rfl
    | some i =>
      rw [hx] at hjob
      show [table[i]?] = [(b.job table i r.1).map Prod.fst]
      rw [hjob i r.1 (by simp)]
  · have hz : x.2 = (x.2.zip r.2).map (·.1) := by
      rw [List.map_fst_zip (Nat.le_of_eq h.len)]
    conv => lhs; rw [hz]
    rw [List.map_map]
    apply List.map_congr_left
    intro p hp
    exact (hjob p.1 p.2 (List.mem_append_right _ (List.mem_map.mpr ⟨p, hp, rfl⟩))).symm

/-- The tasks of a batch are systems of it, different ones. -/
theorem BatchOf.started {b : Batches (TW V) ε} {table : List α} {x r} {L : List (WSys (TW V) ε)} (h : BatchOf val b table x r L)
    {is : List Nat} (hsub : is.Sublist (x.1.toList ++ x.2)) : ∃ Z : List (WSys (TW V) ε), Z.Sublist L ∧ is.length = Z.length
      ∧ ∀ (n i : Nat) s, is[n]? = some i → Z[n]? = some s → s ∈ L ∧ table[i]? = some (val s.typeId) := by
  have hi := h.indices
  have hlen : (x.1.toList ++ x.2).length = L.length := by
    have := congrArg List.length hi
    simpa using this
  have hz : x.1.toList ++ x.2 = ((x.1.toList ++ x.2).zip L).map (·.1) := by
    rw [List.map_fst_zip (Nat.le_of_eq hlen)]
  rw [hz] at hsub
  obtain ⟨Z, hZ, hZi⟩ := List.sublist_map_iff.mp hsub
  refine ⟨Z.map (·.2), ?_, ?_, ?_⟩
  · have := hZ.map (fun p : Nat × WSys (TW V) ε => p.2)
    rwa [List.map_snd_zip (Nat.le_of_eq hlen.symm)] at this
  · have := congrArg List.length hZi
    simpa using this
  · intro n i s hn hs
    rw [List.getElem?_map] at hs
    cases hz' : Z[n]? with
    | none => rw [hz'] at hs; cases hs
    | some z =>
      rw [hz'] at hs
      cases hs
      have hidx : i = z.1 := by
        have := congrArg (fun l : List Nat => l[n]?) hZi
        simp only [List.getElem?_map, hn, hz'] at this
        exact Option.some.inj this
      have hmem : z ∈ (x.1.toList ++ x.2).zip L := hZ.subset (List.mem_of_getElem? hz')
      obtain ⟨k, hk, hke⟩ := List.getElem_of_mem hmem
      have hke' : ((x.1.toList ++ x.2).zip L)[k]? = some z := by rw [List.getElem?_eq_getElem hk, hke]
      obtain ⟨k1, k2⟩ := List.getElem?_zip_eq_some.mp hke'
      have hv := congrArg (fun l : List (Option α) => l[k]?) hi
      simp only [List.getElem?_map, k1, k2] at hv
      rw [hidx]
      exact ⟨List.mem_of_getElem? k2, Option.some.inj hv⟩

theorem runBatch_rest {b : Batches (TW V) ε} {progs names x r} {L : List (WSys (TW V) ε)}
    (h : BatchOf (fun t => (sysOf t).prog t) b progs x r L)
    (hc : ∀ s ∈ L, ∀ c, s.runIf = some c → IsCond viewsOf c) (hL : (L.map (·.typeId)).Pairwise (Apart viewsOf))
    (hin : ∀ s ∈ L, (sysOf s.typeId).Within (viewsOf (.system s.typeId))) {w w' : TW V} {res}
    (hw : Rest viewsOf w) (hr : RunBatch b progs names x r w w' res) : Rest viewsOf w' := by
  cases hr with
  | condition h1 => exact batchConditions_rest h hc hw h1
  | systems h1 h2 h3 h4 h5 h6 =>
    rename_i w1 m flags s ts ts'
    have hw1 := batchConditions_rest h hc hw h1
    have hst := tasks_start h3
    obtain ⟨Z, hZ, hlen, hZi⟩ := h.started (hst.sub.trans (split_sub h2))
    rw [List.length_map] at hlen
    let as : List (Task (Nat → AV V) ε) := List.zipWith (fun (t : Task (TW V) ε) (s : WSys (TW V) ε) =>
      { index := t.index, main := t.main
        status := .todo (asys (stores (viewsOf (.system s.typeId))) s.typeId (sysOf s.typeId)) }) ts Z
    have hpool := Pool.init (L := Z.map (·.typeId)) hw1 (ts := ts) (as := as) (by rw [List.length_map]; exact hlen) (by
        apply List.ext_getElem?
        intro n
        rw [List.getElem?_map, List.getElem?_map, List.getElem?_zipWith]
        cases ht : ts[n]? with
        | none => rfl
        | some t =>
          have hn : n < Z.length := by rw [← hlen]; exact (List.getElem?_eq_some_iff.mp ht).1
          rw [List.getElem?_eq_getElem hn]
          rfl) (by
      intro n t a u ht ha hu
      rw [List.getElem?_zipWith, ht] at ha
      rw [List.getElem?_map] at hu
      cases hz : Z[n]? with
      | none => rw [hz] at hu; cases hu
      | some z =>
        rw [hz] at hu ha
        cases hu
        cases ha
        obtain ⟨hm, hp'⟩ := hZi n t.index z (by rw [List.getElem?_map, ht]; rfl) hz
        obtain ⟨p, hp, hpt⟩ := hst.todo t (List.mem_of_getElem? ht)
        rw [hp'] at hp
        cases hp
        exact ⟨sysOf z.typeId, hin z hm, hpt, rfl⟩)
    obtain ⟨_, hf, _⟩ := hpool.steps (w1.cell 0 0).1 (hL.sublist (hZ.map _)) h4
    exact hf.final h5

theorem apart_of {s t : WSys (TW V) ε} (hs : s.borrows = viewsOf (.system s.typeId)) (ht : t.borrows = viewsOf (.system t.typeId))
    (hne : s.typeId ≠ t.typeId) (h : ¬ Conflicts s t) : Apart viewsOf s.typeId t.typeId := by
  refine ⟨hne, fun x => ⟨?_, ?_⟩⟩
  · rintro ⟨a, ha, hx⟩ ⟨c, hc, hv⟩
    rw [← hs] at ha
    rw [← ht] at hc
    refine h ⟨a, ha, c, hc, ?_⟩
    rcases hx with ⟨h1, h2⟩ | h1
    · exact .share (by rw [h2, hv]) (.inl h1)
    · exact .allLeft h1
  · rintro ⟨a, ha, hx⟩ ⟨c, hc, hv⟩
    rw [← ht] at ha
    rw [← hs] at hc
    refine h ⟨c, hc, a, ha, ?_⟩
    rcases hx with ⟨h1, h2⟩ | h1
    · exact .share (by rw [h2, hv]) (.inr h1)
    · exact .allRight h1

theorem realises_of {w : Workload (TW V) ε} (ht : Tracks viewsOf sysOf w) {b : Batches (TW V) ε} {table : List α} {plan}
    (h : Realises table (fun s => val s.typeId) b w plan) : ∀ x ∈ b.parallel.zip b.parallelRunIf,
    ∃ L, BatchOf val b table x.1 x.2 L ∧ (∀ s ∈ L, s ∈ w.systems) ∧ (L.map (·.typeId)).Pairwise (Apart viewsOf) := by
  intro x hx
  obtain ⟨k, hk, hx⟩ := List.getElem_of_mem hx
  have hx : (b.parallel.zip b.parallelRunIf)[k]? = some x := by rw [List.getElem?_eq_getElem hk, hx]
  obtain ⟨hx1, hx2⟩ := List.getElem?_zip_eq_some.mp hx
  have hk : k < b.parallel.length := (List.getElem?_eq_some_iff.mp hx1).1
  obtain ⟨jobs, hj, hperm⟩ := h.par k hk
  have hj' : jobs = b.batchJobs table x.1 x.2 := by
    unfold Batches.parJobs at hj
    rw [List.getElem?_map, hx] at hj
    exact (Option.some.inj hj).symm
  have hat : ((plan.filter fun p => p.2 == k).map fun p => w.at (fun s => val s.typeId) p.1)
      = (w.batch plan k).map fun s => some (val s.typeId, s.runIf) := by
    have hall : ∀ p ∈ plan.filter (fun p => p.2 == k), ∃ y, w.systems[p.1]? = some y := by
      intro p hp
      obtain ⟨y, hy⟩ := at_some h.schedule (fun s => s) (List.mem_filter.mp hp).1
      unfold Workload.at at hy
      cases hz : w.systems[p.1]? with
      | none => rw [hz] at hy; cases hy
      | some z => exact ⟨z, rfl⟩
    have := congrArg (List.map (Option.map fun s => (val s.typeId, s.runIf))) (filterMap_some _ _ hall)
    rw [List.map_map, List.map_map] at this
    exact this
  rw [hat, hj'] at hperm
  obtain ⟨L, hL, hjL⟩ := perm_map _ _ _ hperm
  obtain ⟨f1, f2⟩ := h.fit k x.1 x.2 hx1 hx2
  have hmem : ∀ s ∈ w.batch plan k, s ∈ w.systems := by
    intro s hs
    obtain ⟨p, _, hp⟩ := List.mem_filterMap.mp hs
    exact List.mem_of_getElem? hp
  refine ⟨L, ⟨hjL, f1, f2⟩, fun s hs => hmem s (hL.mem_iff.mp hs), ?_⟩
  refine ((hL.map (·.typeId)).pairwise_iff Apart.symm).mpr ?_
  apply List.pairwise_map.mpr
  have hnd : (plan.map (·.1)).Nodup := h.schedule.once.nodup_iff.mpr List.nodup_range
  have hpw : (plan.filter fun p => p.2 == k).Pairwise fun p q => p.1 ≠ q.1 :=
    (List.pairwise_map.mp hnd).sublist List.filter_sublist
  unfold Workload.batch
  apply List.pairwise_filterMap.mpr
  have hpw' : (plan.filter fun p => p.2 == k).Pairwise fun p q => p.1 ≠ q.1 ∧ p ∈ plan ∧ q ∈ plan ∧ p.2 = k ∧ q.2 = k := by
    apply List.Pairwise.imp_of_mem _ hpw
    intro p q hp hq hne
    have hp := List.mem_filter.mp hp
    have hq := List.mem_filter.mp hq
    exact ⟨hne, hp.1, hq.1, by simpa using hp.2, by simpa using hq.2⟩
  refine hpw'.imp ?_
  rintro ⟨pa, pb⟩ ⟨qa, qb⟩ ⟨hne, hp, hq, rfl, hqk⟩ s hs t ht'
  subst hqk
  have hms := List.mem_of_getElem? hs
  have hmt := List.mem_of_getElem? ht'
  refine apart_of (ht.views s hms) (ht.views t hmt) ?_ (h.schedule.apart hne hp hq hs ht')
  have hone := List.pairwise_iff_getElem.mp (List.pairwise_map.mp ht.once)
  obtain ⟨la, ea⟩ := List.getElem?_eq_some_iff.mp hs
  obtain ⟨lb, eb⟩ := List.getElem?_eq_some_iff.mp ht'
  rcases Nat.lt_or_gt_of_ne hne with hlt | hlt
  · have := hone pa qa la lb hlt
    rw [ea, eb] at this
    exact this
  · have := hone qa pa lb la hlt
    rw [ea, eb] at this
    exact this.symm

theorem runPar_rest {w : Workload (TW V) ε} (ht : Tracks viewsOf sysOf w) {b : Batches (TW V) ε} {progs names} :
    ∀ {xs}, (∀ x ∈ xs, ∃ L, BatchOf (fun t => (sysOf t).prog t) b progs x.1 x.2 L ∧ (∀ s ∈ L, s ∈ w.systems)
      ∧ (L.map (·.typeId)).Pairwise (Apart viewsOf)) → ∀ {s s' : TW V} {res}, Rest viewsOf s → RunPar b progs names xs s s' res →
    Rest viewsOf s' := by
  intro xs hxs s s' res hs hr
  have one : ∀ {x}, x ∈ xs → ∀ {s s' : TW V} {res}, Rest viewsOf s → RunBatch b progs names x.1 x.2 s s' res → Rest viewsOf s' := by
    intro x hx s s' res hs hr
    obtain ⟨L, h1, h2, h3⟩ := hxs x hx
    refine runBatch_rest h1 (fun t ht' => ht.cond t (h2 t ht')) h3 (fun t ht' => ?_) hs hr
    rw [← ht.views t (h2 t ht')]
    exact ht.within t (h2 t ht')
  clear hxs
  induction hr with
  | nil => exact hs
  | stop h => exact one (by simp) hs h
  | next h _ ih =>
    exact ih (one (by simp) hs h) fun hx => one (List.mem_cons_of_mem _ hx)

theorem runWorkload_rest {wl : Workload (TW V) ε} (ht : Tracks viewsOf sysOf wl) {b : Batches (TW V) ε} {progs plan}
    (h : Realises progs (fun s => (sysOf s.typeId).prog s.typeId) b wl plan) {names l} {w w' : TW V} {res} (hw : Rest viewsOf w)
    (hr : RunWorkload b progs names l w w' res) : Rest viewsOf w' := by
  have hp := fun {s s' : TW V} {res} => runPar_rest ht (names := names) (realises_of (val := fun t => (sysOf t).prog t) ht h) (s := s) (s' := s') (res := res)
  have hcond : ∀ {c}, b.workloadRunIf = some c → IsCond viewsOf c := fun hc => ht.condAll _ (by rw [← h.cond]; exact hc)
  cases hr with
  | plain _ hr => exact hp hw hr
  | conditionErr hc he =>
    have := isCond_rest (hcond hc) hw
    rw [he] at this
    exact this
  | conditionFalse hc he =>
    have := isCond_rest (hcond hc) hw
    rw [he] at this
    exact this
  | conditionTrue hc he hr =>
    have := isCond_rest (hcond hc) hw
    rw [he] at this
    exact hp this hr

theorem hist_rest {w : TW V} (h : Hist viewsOf sysOf w) : Rest viewsOf w := by
  induction h with
  | new v => exact rest_new v
  | outside x k v _ ih => exact rest_fresh ih x k v
  | run _ hb ht hc hl hr ih =>
    exact runWorkload_rest ht (created_realises hb hc hl fun s _ => rfl) ih hr

end Verif.Sched.Told
