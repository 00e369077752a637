import Verif.Spec.UniqueClears
import Verif.Props.UniqueTracking

/-! # C28: all programs over a unique -/
namespace Verif.UTrk
open Tracking
open TrkSpec (InWindow upd lastIx lastIx_snoc lastIx_le pos pos_eq pos_append window_iff
  isWithin_iff nodup_getElem mem_starts_get)
variable {V : Type}

theorem sinceIns_snoc (tr : List (Act V)) (x : Act V) :
    sinceIns (tr ++ [x]) = (match x with
      | .add _ => some []
      | .remove _ => none
      | .worldClearIns => (sinceIns tr).map fun _ => []
      | a => (sinceIns tr).map (· ++ [a])) := by
  unfold sinceIns; rw [List.foldl_append]; cases x <;> rfl

theorem lastTouch_snoc (tr : List (Act V)) (x : Act V) :
    lastTouch (tr ++ [x]) = (match x with
      | .add _ => .never
      | .remove _ => .never
      | .write p _ => .session p
      | .worldClearMod => .clear []
      | a => match lastTouch tr with
        | .clear l => .clear (l ++ [a])
        | t => t) := by
  unfold lastTouch; rw [List.foldl_append]; cases x <;> rfl

/-- The timestamp a touch leaves, with the sessions `S` begun so far. -/
def touchTime (S : List (Nat × Option Nat)) : Touch V → Nat
  | .never => 0
  | .session p => pos S p
  | .clear l => S.length - (starts l).length + 1

/-- Nothing later than the sessions. -/
def touchIn (S : List (Nat × Option Nat)) : Touch V → Prop
  | .never => True
  | .session p => p ∈ S.map (·.1)
  | .clear l => ∃ S0, S = S0 ++ starts l

structure Inv' (tr : List (Act V)) (w : World V) : Prop where
  isSome : (sinceIns tr).isSome = w.unique.isSome
  born : ∀ u l, w.unique = some u → sinceIns tr = some l → ∃ S0, starts tr = S0 ++ starts l ∧ u.insert = S0.length + 1
  touched : ∀ u, w.unique = some u → u.modification = touchTime (starts tr) (lastTouch tr) ∧ touchIn (starts tr) (lastTouch tr)

/-- Acts that change nothing about when the unique was added or written, and begin no session. -/
theorem inv'_quiet {tr : List (Act V)} {w w' : World V} {x : Act V} (hi : Inv' tr w)
    (hx : match x with | .start .. | .add _ | .remove _ | .write .. | .worldClearIns | .worldClearMod => False | _ => True)
    (hu : w'.unique.isSome = w.unique.isSome)
    (hw : ∀ u', w'.unique = some u' → ∃ u, w.unique = some u ∧ u'.insert = u.insert ∧ u'.modification = u.modification) :
    Inv' (tr ++ [x]) w' := by
  have hs : starts (tr ++ [x]) = starts tr := by
    rw [starts_snoc]; cases x <;> first | exact hx.elim | simp
  have hsl : ∀ l : List (Act V), starts (l ++ [x]) = starts l := by
    intro l; rw [starts_snoc]; cases x <;> first | exact hx.elim | simp
  have hl : sinceIns (tr ++ [x]) = (sinceIns tr).map (· ++ [x]) := by
    rw [sinceIns_snoc]; cases x <;> first | exact hx.elim | rfl
  have ht : lastTouch (tr ++ [x]) = (match lastTouch tr with | .clear l => .clear (l ++ [x]) | t => t) := by
    rw [lastTouch_snoc]; cases x <;> first | exact hx.elim | rfl
  refine ⟨by rw [hl, Option.isSome_map, hu]; exact hi.isSome, ?_, ?_⟩
  · intro u' l' hu' hl'
    rw [hl, Option.map_eq_some_iff] at hl'
    obtain ⟨l, hl1, rfl⟩ := hl'
    obtain ⟨u, h1, h2, _⟩ := hw u' hu'
    rw [hs, hsl, h2]
    exact hi.born u l h1 hl1
  · intro u' hu'
    obtain ⟨u, h1, _, h2⟩ := hw u' hu'
    rw [hs, ht, h2]
    have := hi.touched u h1
    cases hc : lastTouch tr with
    | never => rw [hc] at this; exact this
    | session p => rw [hc] at this; exact this
    | clear l =>
      rw [hc] at this
      unfold touchTime touchIn at this ⊢
      simp only [hsl]
      exact this

theorem prog_inv' {tr : List (Act V)} {w : World V} (hp : Prog World.init tr w) : Inv' tr w := by
  induction hp with
  | nil => exact ⟨rfl, (fun u l h => by cases h), (fun u h => by cases h)⟩
  | @snoc tr w x w' hp hd ih =>
    have hi := prog_inv hp
    cases hd with
    | @start p sys hp =>
      have hs : starts (tr ++ [.start p sys]) = starts tr ++ [(p, sys)] := starts_snoc _ _
      have hl : sinceIns (tr ++ [.start p sys]) = (sinceIns tr).map (· ++ [.start p sys]) := sinceIns_snoc _ _
      refine ⟨by rw [hl, Option.isSome_map]; exact ih.isSome, ?_, ?_⟩
      · intro u l' hu hl'
        rw [hl, Option.map_eq_some_iff] at hl'
        obtain ⟨l, hl1, rfl⟩ := hl'
        obtain ⟨S0, h1, h2⟩ := ih.born u l hu hl1
        exact ⟨S0, by rw [hs, h1, starts_snoc, List.append_assoc], h2⟩
      · intro u hu
        have := ih.touched u hu
        rw [hs, lastTouch_snoc]
        simp only
        cases hc : lastTouch tr with
        | never => rw [hc] at this; exact this
        | session q =>
          rw [hc] at this
          refine ⟨?_, ?_⟩
          · show u.modification = pos (starts tr ++ [(p, sys)]) q
            rw [pos_append this.2]; exact this.1
          · show q ∈ (starts tr ++ [(p, sys)]).map (·.1)
            rw [List.map_append]; exact List.mem_append_left _ this.2
        | clear l =>
          rw [hc] at this
          obtain ⟨h1, S0, h2⟩ := this
          refine ⟨?_, S0, by rw [h2, starts_snoc, List.append_assoc]⟩
          show u.modification = (starts tr ++ [(p, sys)]).length - (starts (l ++ [.start p sys])).length + 1
          rw [h1]
          show (starts tr).length - (starts l).length + 1 = _
          rw [starts_snoc]
          simp only [List.length_append, List.length_cons, List.length_nil]
          omega
    | @add x =>
      have hs : starts (tr ++ [.add x]) = starts tr := by rw [starts_snoc]; simp
      have hl : sinceIns (tr ++ [.add x]) = some [] := sinceIns_snoc _ _
      refine ⟨by rw [hl]; rfl, ?_, ?_⟩
      · intro u l hu h
        rw [hl] at h
        injection h with h
        injection hu with hu
        subst h; subst hu
        refine ⟨starts tr, by rw [hs]; exact (List.append_nil _).symm, ?_⟩
        exact hi.counter
      · intro u hu
        injection hu with hu
        subst hu
        rw [lastTouch_snoc]
        exact ⟨rfl, trivial⟩
    | @remove u hu =>
      refine ⟨?_, (fun u l h => by cases h), (fun u h => by cases h)⟩
      rw [sinceIns_snoc]; rfl
    | read h1 h2 => exact inv'_quiet ih trivial rfl fun u h => ⟨u, h, rfl, rfl⟩
    | look h1 h2 => exact inv'_quiet ih trivial rfl fun u h => ⟨u, h, rfl, rfl⟩
    | @write p s u x h1 h2 =>
      have hs : starts (tr ++ [.write p x]) = starts tr := by rw [starts_snoc]; simp
      have hl : sinceIns (tr ++ [.write p x]) = (sinceIns tr).map (· ++ [.write p x]) := sinceIns_snoc _ _
      refine ⟨?_, ?_, ?_⟩
      · rw [hl, Option.isSome_map, ih.isSome, h2]; rfl
      · intro u' l' hu' hl'
        injection hu' with hu'
        subst hu'
        rw [hl, Option.map_eq_some_iff] at hl'
        obtain ⟨l, hl1, rfl⟩ := hl'
        obtain ⟨S0, a, b⟩ := ih.born u l h2 hl1
        refine ⟨S0, ?_, b⟩
        rw [hs, starts_snoc]
        simp only [List.append_nil]
        exact a
      · intro u' hu'
        injection hu' with hu'
        subst hu'
        obtain ⟨i, sys, hip, hcur, _⟩ := hi.session p s h1
        rw [hs, lastTouch_snoc]
        refine ⟨?_, List.mem_map.2 ⟨_, List.mem_of_getElem? hip, rfl⟩⟩
        show s.current = pos (starts tr) p
        rw [pos_eq hi.nodup hip, hcur]
    | @clearIns p s u h1 h2 =>
      refine inv'_quiet ih trivial (by rw [h2]; rfl) fun u' h => ?_
      injection h with h; subst h; exact ⟨u, h2, rfl, rfl⟩
    | @clearMod p s u h1 h2 =>
      refine inv'_quiet ih trivial (by rw [h2]; rfl) fun u' h => ?_
      injection h with h; subst h; exact ⟨u, h2, rfl, rfl⟩
    | worldClearIns =>
      have hs : starts (tr ++ [.worldClearIns]) = starts tr := by rw [starts_snoc]; simp
      have hl : sinceIns (tr ++ [.worldClearIns]) = (sinceIns tr).map fun _ => [] := sinceIns_snoc _ _
      refine ⟨?_, ?_, ?_⟩
      · show _ = (w.unique.map _).isSome
        rw [hl, Option.isSome_map, Option.isSome_map]; exact ih.isSome
      · intro u' l' hu' hl'
        obtain ⟨u, hu, rfl⟩ := Option.map_eq_some_iff.1 hu'
        rw [hl, Option.map_eq_some_iff] at hl'
        obtain ⟨l, _, rfl⟩ := hl'
        exact ⟨starts tr, by rw [hs]; exact (List.append_nil _).symm, hi.counter⟩
      · intro u' hu'
        obtain ⟨u, hu, rfl⟩ := Option.map_eq_some_iff.1 hu'
        have := ih.touched u hu
        rw [hs, lastTouch_snoc]
        simp only
        cases hc : lastTouch tr with
        | never => rw [hc] at this; exact this
        | session q => rw [hc] at this; exact this
        | clear l =>
          rw [hc] at this
          unfold touchTime touchIn at this ⊢
          have e : starts (l ++ [.worldClearIns]) = starts l := by rw [starts_snoc]; simp
          simp only [e]
          exact this
    | worldClearMod =>
      have hs : starts (tr ++ [.worldClearMod]) = starts tr := by rw [starts_snoc]; simp
      have hl : sinceIns (tr ++ [.worldClearMod]) = (sinceIns tr).map (· ++ [.worldClearMod]) := sinceIns_snoc _ _
      refine ⟨?_, ?_, ?_⟩
      · show _ = (w.unique.map _).isSome
        rw [hl, Option.isSome_map, Option.isSome_map]; exact ih.isSome
      · intro u' l' hu' hl'
        obtain ⟨u, hu, rfl⟩ := Option.map_eq_some_iff.1 hu'
        rw [hl, Option.map_eq_some_iff] at hl'
        obtain ⟨l, hl1, rfl⟩ := hl'
        obtain ⟨S0, a, b⟩ := ih.born u l hu hl1
        refine ⟨S0, ?_, b⟩
        rw [hs, starts_snoc]
        simp only [List.append_nil]
        exact a
      · intro u' hu'
        obtain ⟨u, hu, rfl⟩ := Option.map_eq_some_iff.1 hu'
        rw [hs, lastTouch_snoc]
        refine ⟨?_, starts tr, (List.append_nil _).symm⟩
        show w.clock.counter = _
        rw [hi.counter]
        rfl

/-- A timestamp given before the sessions `L` began is in the window of a run exactly when it is the first of its system in `L`. -/
theorem first_window {S S0 L : List (Nat × Option Nat)} {mx r b : Nat} (hn : (S.map (·.1)).Nodup) (hst : S = S0 ++ L)
    (hm : S[mx]? = some (r, some b)) :
    InWindow (S0.length + 1) (lastIx b (S.take mx)) (mx + 1) ↔ (L.find? (fun s => s.2 == some b)).map (·.1) = some r := by
  have h1 : InWindow (S0.length + 1) (lastIx b (S.take mx)) (mx + 1) ↔ lastIx b (S.take mx) ≤ S0.length ∧ S0.length ≤ mx := by
    unfold InWindow; omega
  rw [h1, lastIx_le, Option.map_eq_some_iff]
  have hlt := SparseSet.getElem?_lt hm
  have hdrop : L = S.drop S0.length := by rw [hst, List.drop_left]
  rw [hdrop]
  have hget : ∀ (j : Nat), (S.drop S0.length)[j]? = S[S0.length + j]? := fun j => List.getElem?_drop
  constructor
  · rintro ⟨h2, h3⟩
    refine ⟨(r, some b), ?_, rfl⟩
    rw [List.find?_eq_some_iff_getElem]
    refine ⟨by simp, mx - S0.length, by rw [List.length_drop]; omega, ?_, ?_⟩
    · have := hget (mx - S0.length)
      rw [Nat.add_sub_cancel' h3, hm, List.getElem?_eq_getElem (by rw [List.length_drop]; omega)] at this
      injection this
    · intro j hj
      have hj' : S0.length + j < S.length := by omega
      have := h2 (S0.length + j) S[S0.length + j] (by omega)
        (by rw [List.getElem?_take, if_pos (by omega), List.getElem?_eq_getElem hj'])
      rw [List.getElem_drop]
      simpa using this
  · rintro ⟨y, hy, hyr⟩
    rw [List.find?_eq_some_iff_getElem] at hy
    obtain ⟨hyb, k, hk, hky, hall⟩ := hy
    rw [List.length_drop] at hk
    have hki : S[S0.length + k]? = some y := by
      rw [List.getElem?_eq_getElem (by omega)]
      rw [List.getElem_drop] at hky
      rw [hky]
    have heq : S0.length + k = mx := nodup_getElem hn hki hm hyr
    refine ⟨?_, by omega⟩
    intro j z hj hz
    rw [List.getElem?_take] at hz
    split at hz
    · have h4 := hall (j - S0.length) (by omega)
      rw [List.getElem_drop] at h4
      rw [List.getElem?_eq_getElem (by omega)] at hz
      injection hz with hz
      have h5 : S[S0.length + (j - S0.length)]'(by omega) = z := by
        rw [← hz]; congr 1; omega
      rw [h5] at h4
      simpa using h4
    · cases hz

/-- C28, C26: what a run `r` of system `b` sees, for all programs. The unique is reported inserted exactly by the first run of each system
that began after it was last added or after the last `World::clear_all_inserted`, and modified by the run that has to report the session
that last accessed it mutably, or, if `World::clear_all_modified` was called after that, by the first run that began after the call. -/
theorem C28_all_iff {tr : List (Act V)} {w : World V} {r b : Nat} {i m : Bool}
    (hp : Prog World.init (tr ++ [.look r i m]) w) (hr : (r, some b) ∈ starts tr) :
    (∃ l, sinceIns tr = some l ∧ (i = true ↔ firstRun l b = some r)) ∧
    (m = true ↔ match lastTouch tr with
      | .never => False
      | .session p => reporter tr b p = some r
      | .clear l => firstRun l b = some r) := by
  obtain ⟨w1, hp1, hd⟩ := prog_last hp
  have hi := prog_inv hp1
  have hi' := prog_inv' hp1
  cases hd with
  | @look _ s u hs hu =>
  obtain ⟨mx, sy, hm, hcur, hlast⟩ := hi.session r s hs
  obtain ⟨m', hm'⟩ := List.mem_iff_getElem?.1 hr
  have hmm := nodup_getElem hi.nodup hm hm' rfl
  subst hmm
  rw [hm] at hm'
  injection hm' with hm'
  injection hm' with _ hsy
  subst hsy
  constructor
  · obtain ⟨l, hl⟩ : ∃ l, sinceIns tr = some l := Option.isSome_iff_exists.1 (by rw [hi'.isSome, hu]; rfl)
    refine ⟨l, hl, ?_⟩
    obtain ⟨S0, h1, h2⟩ := hi'.born u l hu hl
    show isWithin u.insert (s.lastRun.getD u.lastInsert) s.current = true ↔ _
    rw [isWithin_iff, h2, hlast, hcur]
    exact first_window hi.nodup h1 hm
  · obtain ⟨h1, h2⟩ := hi'.touched u hu
    show isWithin u.modification (s.lastRun.getD u.lastModification) s.current = true ↔ _
    rw [isWithin_iff, h1, hlast, hcur]
    cases hc : lastTouch tr with
    | never =>
      constructor
      · intro h; exact absurd h.1 (Nat.not_lt_zero _)
      · intro h; cases h
    | session p =>
      rw [hc] at h2
      obtain ⟨k, x, hk⟩ := mem_starts_get h2
      show InWindow (pos (starts tr) p) _ _ ↔ _
      rw [pos_eq hi.nodup hk]
      exact window_iff hi.nodup hk hm
    | clear l =>
      rw [hc] at h2
      obtain ⟨S0, h3⟩ := h2
      show InWindow ((starts tr).length - (starts l).length + 1) _ _ ↔ _
      have : (starts tr).length - (starts l).length = S0.length := by rw [h3, List.length_append]; omega
      rw [this]
      exact first_window hi.nodup h3 hm

/-- The program of `C26_unique_fails`: run 1 sees the unique inserted and modified because of the two clears. -/
example : ∃ (tr : List (Act Nat)) (w : World Nat), Prog World.init (tr ++ [.look 1 true true]) w ∧ (1, some 7) ∈ starts tr ∧
    sinceIns tr = some [.worldClearMod, .start 1 (some 7)] := by
  obtain ⟨w, h⟩ := C26_unique_fails
  exact ⟨[.add 5, .start 0 (some 7), .look 0 true false, .worldClearIns, .worldClearMod, .start 1 (some 7)], w, h, by simp [starts], rfl⟩

end Verif.UTrk
