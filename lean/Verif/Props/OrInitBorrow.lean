import Verif.Model.UniquePresence
import Verif.Spec.ParamBorrow
import Verif.Lemmas.BorrowViews
import Verif.Props.BorrowViews
import Verif.Props.UniquePresence

/-!
# C39 for `UniqueOrInitView` and `UniqueOrDefaultView`: a refused view leaves no guard, a given one exactly its own
-/
namespace Verif.Borrow

theorem clean_with_all {st : Cells} {v : View} (h : Clean st v) (hp : st.present allCell = true) :
    Clean st (.tuple [.opt (some v), .view allCell false false]) := by
  intro s
  have hv := h s
  simp only [View.sharedOn, View.exclusiveOn, View.sharedOnAll, View.exclusiveOnAll]
  by_cases hs : s = allCell
  · subst hs
    exact ⟨fun hx => hv.1 (by simpa using hx), fun _ => hp⟩
  · exact ⟨fun hx => hv.1 (by simpa [hs] using hx), fun hx => hv.2 (by simpa [hs] using hx)⟩

theorem clean_only_all {st : Cells} (hp : st.present allCell = true) :
    Clean st (.tuple [.opt none, .view allCell false false]) := by
  intro s
  by_cases hs : s = allCell
  · subst hs
    exact ⟨fun hx => by simp [View.exclusiveOn, View.exclusiveOnAll] at hx, fun _ => hp⟩
  · exact ⟨fun hx => by simp [View.exclusiveOn, View.exclusiveOnAll] at hx,
      fun hx => by simp [View.sharedOn, View.exclusiveOn, View.sharedOnAll, View.exclusiveOnAll, hs] at hx⟩

theorem orInit_spec {st : Cells} {n : Nat} (s : Nat) (x : Bool) (hg : Good st (n + 3)) :
    ∃ st' o, st.orInit s x = .ok (st', o) ∧ Good st' n ∧ Moves st st' (heldS o) (heldX o) ∧
      (∀ v, o = some v → v = .tuple [.opt (if st.present s then some (.view s x true) else none), .view allCell false false]) ∧
      (∀ v, o = some v → Clean st' v) := by
  obtain ⟨st1, got, h1, h2, h3, _, _⟩ := guard_spec (n := n + 2) allCell false hg hg.ok.base.1
  unfold Cells.orInit
  rw [h1]
  cases got with
  | false =>
    exact ⟨st1, none, by simp [Except.bind], h2.mono (by omega), h3.congr (fun k => by simp [heldS, only]) (fun k => by simp [heldX, only]), fun v h => (by cases h), fun v h => by cases h⟩
  | true =>
    simp only [Except.bind, Bool.true_eq_false, if_false]
    have e1 := h3.shared allCell
    simp [only] at e1
    obtain ⟨st2, h4, h5, h6⟩ := cloneAll_spec (n := n + 1) true h2 (fun _ => by omega)
    rw [h4]
    dsimp only
    have e2 := h6.shared allCell
    simp [only] at e2
    obtain ⟨st3, o, h7, h8, h9, h10⟩ := borrowView_spec (n := n) s x false true true h5 (fun _ => by omega)
    rw [h7]
    dsimp only
    have e3 := h9.shared allCell
    have hp : st2.present = st.present := (cloneAll_present h4).trans (guard_present h1)
    have hsome : ∀ v, o = some v → st.present s = true := by
      intro v hv
      subst hv
      cases hps : st.present s with
      | true => rfl
      | false =>
        unfold Cells.borrowView at h7
        simp only [Bool.false_eq_true, if_false, hp, hps, if_true] at h7
        cases hd : st2.dropAll true with
        | error e => rw [hd] at h7; cases h7
        | ok p => rw [hd] at h7; cases h7
    cases o with
    | some v =>
      have hps := hsome v rfl
      obtain ⟨rfl, hcl⟩ := h10 v rfl
      refine ⟨st3, _, rfl, h8, ((h3.trans h6).trans h9).congr (fun k => ?_) (fun k => ?_), fun v h => by cases h; rw [hps]; rfl,
        fun v h => by cases h; exact clean_with_all hcl h8.ok.base.1⟩
      · by_cases hk : k = allCell <;> simp [only, allD, heldS, View.sharedOn, View.sharedOnAll, hk] <;> omega
      · by_cases hk : k = allCell <;> simp [only, heldX, View.exclusiveOn, View.exclusiveOnAll, hk]
    | none =>
      dsimp only
      split
      · rename_i hm
        rw [hp] at hm
        refine ⟨st3, _, rfl, h8, ((h3.trans h6).trans h9).congr (fun k => ?_) (fun k => ?_), fun v h => by cases h; rw [hm]; rfl,
          fun v h => by cases h; exact clean_only_all h8.ok.base.1⟩
        · by_cases hk : k = allCell <;> simp [only, allD, heldS, View.sharedOn, View.sharedOnAll, hk]
        · by_cases hk : k = allCell <;> simp [only, heldX, View.exclusiveOn, View.exclusiveOnAll, hk]
      · simp [heldS, allD] at e3
        obtain ⟨st4, h11, h12, h13⟩ := dropAll_spec true h8 (fun _ => by omega)
        rw [h11]
        refine ⟨st4, none, rfl, h12, (((h3.trans h6).trans h9).trans h13).congr (fun k => ?_) (fun k => ?_), fun v h => (by cases h), fun v h => by cases h⟩
        · by_cases hk : k = allCell <;> simp [only, allD, heldS, hk]
        · by_cases hk : k = allCell <;> simp [only, heldX, hk]

theorem orDefault_spec {st : Cells} {n : Nat} (s : Nat) (x : Bool) (hg : Good st (n + 3)) :
    ∃ st' o, st.orDefault s x = .ok (st', o) ∧ Good st' n ∧ Moves st st' (heldS o) (heldX o) ∧
      (∀ v, o = some v → v = .view s x true ∧ Clean st' v) := by
  obtain ⟨st1, got, h1, h2, h3, _, _⟩ := guard_spec (n := n + 2) allCell false hg hg.ok.base.1
  unfold Cells.orDefault
  rw [h1]
  cases got with
  | false =>
    exact ⟨st1, none, by simp [Except.bind], h2.mono (by omega), h3.congr (fun k => by simp [heldS, only]) (fun k => by simp [heldX, only]), fun v h => by cases h⟩
  | true =>
    simp only [Except.bind, Bool.true_eq_false, if_false]
    have e1 := h3.shared allCell
    simp [only] at e1
    split
    · obtain ⟨c1, c2, _⟩ := create_spec s h2
      have e2 := c2.shared allCell
      simp at e2
      obtain ⟨st3, o, h7, h8, h9, h10⟩ := borrowView_spec (n := n + 1) s x false true true c1 (fun _ => by omega)
      refine ⟨st3, o, h7, h8.mono (by omega), ((h3.trans c2).trans h9).congr (fun k => ?_) (fun k => ?_), h10⟩
      · by_cases hk : k = allCell <;> simp [only, allD, hk] <;> omega
      · by_cases hk : k = allCell <;> simp [only]
    · obtain ⟨st2, o, h4, h5, h6, h7⟩ := borrowView_spec (n := n + 1) s x false true false h2 (fun h => by cases h)
      rw [h4]
      dsimp only
      cases o with
      | none =>
        have e2 := h6.shared allCell
        simp [heldS, allD] at e2
        obtain ⟨st4, h11, h12, h13⟩ := dropAll_spec true h5 (fun _ => by omega)
        dsimp only
        rw [h11]
        refine ⟨st4, none, rfl, h12.mono (by omega), ((h3.trans h6).trans h13).congr (fun k => ?_) (fun k => ?_), fun v h => by cases h⟩
        · by_cases hk : k = allCell <;> simp [only, allD, heldS, hk]
        · by_cases hk : k = allCell <;> simp [only, heldX, hk]
      | some v =>
        obtain ⟨rfl, hc⟩ := h7 v rfl
        obtain ⟨st3, h8, h9, h10⟩ := dropView_spec (.view s x false) h5 hc (fun k => by
          have a := h6.shared k
          have b := h6.exclusive k
          simp only [heldS, heldX, allD, Bool.false_eq_true, false_and, if_false] at a b
          constructor <;> omega)
        dsimp only
        rw [h8]
        dsimp only
        have a := h6.shared allCell
        have b := h10.shared allCell
        simp only [heldS, allD, Bool.false_eq_true, false_and, if_false] at a b
        obtain ⟨st4, o, g1, g2, g3, g4⟩ := borrowView_spec (n := n) s x false true true h9 (fun _ => by omega)
        refine ⟨st4, o, g1, g2, (((h3.trans h6).trans h10).trans g3).congr (fun k => ?_) (fun k => ?_), g4⟩
        · by_cases hk : k = allCell <;> simp [only, allD, heldS, hk] <;> omega
        · by_cases hk : k = allCell <;> simp [only, heldX] <;> omega

theorem guards_of {st st' : Cells} {o : Option View} (h : Moves st st' (heldS o) (heldX o)) :
    (o = none → SameGuards st st') ∧ (∀ v, o = some v → MoreGuards st st' v) := by
  refine ⟨fun ho s => ?_, fun v ho s => ?_⟩
  all_goals
    subst ho
    have := h.shared s
    have := h.exclusive s
    have hb := h.reborrowed s
    simp only [heldS, heldX] at *
    refine ⟨by omega, hb, by omega⟩

/-- C39 for `UniqueOrInitView` and `UniqueOrInitViewMut`: refused, nothing stays borrowed; given, with or without the unique, exactly
the guards of the view are added. It is given without the unique only if there is none. -/
theorem C39_or_init (s : Nat) (x : Bool) {st : Cells} (hok : st.Ok) (hr : st.Room 3) :
    ∃ st' o, st.orInit s x = .ok (st', o) ∧ st'.Ok ∧ (o = none → SameGuards st st') ∧ (∀ v, o = some v → MoreGuards st st' v ∧
      v = .tuple [.opt (if st.present s then some (.view s x true) else none), .view allCell false false]) := by
  obtain ⟨st', o, h1, h2, h3, h4, _⟩ := orInit_spec s x (n := 0) ((Good.of hok hr).mono (by omega))
  exact ⟨st', o, h1, h2.ok, (guards_of h3).1, fun v hv => ⟨(guards_of h3).2 v hv, h4 v hv⟩⟩

/-- C39 for `UniqueOrDefaultView` and `UniqueOrDefaultViewMut`. -/
theorem C39_or_default (s : Nat) (x : Bool) {st : Cells} (hok : st.Ok) (hr : st.Room 3) :
    ∃ st' o, st.orDefault s x = .ok (st', o) ∧ st'.Ok ∧ (o = none → SameGuards st st') ∧ (∀ v, o = some v → MoreGuards st st' v ∧ v = .view s x true) := by
  obtain ⟨st', o, h1, h2, h3, h4⟩ := orDefault_spec s x (n := 0) ((Good.of hok hr).mono (by omega))
  exact ⟨st', o, h1, h2.ok, (guards_of h3).1, fun v hv => ⟨(guards_of h3).2 v hv, (h4 v hv).1⟩⟩

/-- The unique 2 is held exclusively: both views of it are refused and leave nothing; the unique 3 is missing: its view is given. -/
example : ∃ st', Ex.busy.orInit 2 false = .ok (st', none) ∧ (st'.cell allCell).shared = 0 := ⟨_, rfl, rfl⟩
example : ∃ st', Ex.busy.orDefault 2 true = .ok (st', none) ∧ (st'.cell allCell).shared = 0 := ⟨_, rfl, rfl⟩
example : ∃ st', Ex.busy.orInit 3 true = .ok (st', some (.tuple [.opt none, .view allCell false false])) ∧
    (st'.cell allCell).shared = 1 := ⟨_, rfl, rfl⟩
example : Ex.busy.Room 3 :=
  ⟨by decide, fun s => by have := Ex.busy_room.shared s; omega, Ex.busy_room.alive, fun s h => by have := Ex.busy_room.failed s h; omega⟩

/-! ## All the parameters of a system -/

theorem param_spec (p : Param) {st : Cells} {n : Nat} (hg : Good st (n + p.cost)) :
    ∃ st' o, st.param p = .ok (st', o) ∧ Good st' n ∧ Moves st st' (heldS o) (heldX o) ∧
      (∀ v, o = some v → Given st.present p v ∧ Clean st' v) := by
  cases p with
  | req r => exact worldBorrow_spec r hg
  | orDefault s x => exact orDefault_spec s x hg
  | orInit s x =>
    obtain ⟨st', o, h1, h2, h3, h4, h5⟩ := orInit_spec s x hg
    exact ⟨st', o, h1, h2, h3, fun v hv => ⟨h4 v hv, h5 v hv⟩⟩

theorem GivenAll.before {st st1 : Cells} {ps : List Param} {vs : List View} (h : GivenAll st1 ps vs)
    (hp : ∀ s, st.present s = true → st1.present s = true) : GivenAll st ps vs := by
  induction h with
  | nil => exact .nil
  | cons h1 h2 _ ih => exact .cons (fun s hs => h1 s (hp s hs)) h2 ih

theorem takes_spec (ps : List Param) {st : Cells} {n : Nat} (hg : Good st (n + (ps.map Param.cost).sum)) :
    ∃ st' o, st.takes ps = .ok (st', o) ∧ Good st' n ∧ Moves st st' (heldAllS o) (heldAllX o)
      ∧ (∀ vs, o = some vs → GivenAll st ps vs ∧ CleanAll st' vs) := by
  induction ps generalizing st n with
  | nil =>
    refine ⟨st, some [], rfl, hg.mono (by omega), (Moves.refl st).congr (fun _ => by simp [heldAllS, View.sharedOnAll])
      (fun _ => by simp [heldAllX, View.exclusiveOnAll]), fun v h => ?_⟩
    cases h
    exact ⟨.nil, fun s => ⟨fun h => by simp [View.exclusiveOnAll] at h, fun h => by simp [View.exclusiveOnAll, View.sharedOnAll] at h⟩⟩
  | cons r rs ih =>
    rw [List.map_cons, List.sum_cons] at hg
    obtain ⟨st1, o, h1, h2, h3, h4⟩ := param_spec r (n := n + (rs.map Param.cost).sum) (hg.mono (by omega))
    cases o with
    | none =>
      exact ⟨st1, none, by rw [Cells.takes, h1]; rfl, h2.mono (by omega), h3.congr (fun k => by simp [heldS, heldAllS])
        (fun k => by simp [heldX, heldAllX]), fun v h => by cases h⟩
    | some v =>
      obtain ⟨ha, hc⟩ := h4 v rfl
      obtain ⟨st2, o, h5, h6, h7, h8⟩ := ih (n := n) h2
      cases o with
      | none =>
        obtain ⟨st3, h9, h10, h11⟩ := dropView_spec v h6 (hc.moves h7) (fun s => by
          have := h3.shared s
          have := h3.exclusive s
          have := h7.shared s
          have := h7.exclusive s
          simp only [heldS, heldX, heldAllS, heldAllX] at *
          omega)
        refine ⟨st3, none, ?_, h10, ((h3.trans h7).trans h11).congr (fun k => ?_) (fun k => ?_), fun v h => by cases h⟩
        · rw [Cells.takes, h1]
          show ((st1.takes rs).bind _) = _
          rw [h5]
          show ((st2.dropView v).map fun x => (x, none)) = _
          rw [h9]
          rfl
        · simp only [heldS, heldAllS]; omega
        · simp only [heldX, heldAllX]; omega
      | some vs =>
        obtain ⟨ha', hc'⟩ := h8 vs rfl
        refine ⟨st2, some (v :: vs), ?_, h6, (h3.trans h7).congr (fun k => ?_) (fun k => ?_), fun v' h => ?_⟩
        · rw [Cells.takes, h1]
          show ((st1.takes rs).bind _) = _
          rw [h5]
          rfl
        · simp only [heldS, heldAllS, View.sharedOnAll]; omega
        · simp only [heldX, heldAllX, View.exclusiveOnAll]; omega
        · cases h
          refine ⟨.cons (fun _ h => h) ha (ha'.before h3.setup.present), fun s => ?_⟩
          have c1 := (hc.moves h7) s
          have c2 := hc' s
          simp only [View.sharedOnAll, View.exclusiveOnAll]
          constructor
          · intro h
            by_cases h0 : v.exclusiveOn s = 0
            · exact c2.1 (by omega)
            · exact c1.1 h0
          · intro h
            by_cases h0 : v.sharedOn s + v.exclusiveOn s = 0
            · exact c2.2 (by omega)
            · exact c1.2 h0

/-- C39 for the parameters of a system, `UniqueOrInitView(Mut)` and `UniqueOrDefaultView(Mut)` among them: if one of them is refused,
nothing stays borrowed; otherwise exactly the guards of the views are added, and each view is the one its parameter asks for. -/
theorem C39_parameters (ps : List Param) {st : Cells} (hok : st.Ok) (hr : st.Room (ps.map Param.cost).sum) :
    ∃ st' o, st.takes ps = .ok (st', o) ∧ st'.Ok ∧ (o = none → SameGuards st st') ∧
      (∀ vs, o = some vs → GivenAll st ps vs ∧ MoreGuards st st' (.tuple vs)) := by
  obtain ⟨st', o, h1, h2, h3, h4⟩ := takes_spec ps (n := 0) ((Good.of hok hr).mono (by omega))
  refine ⟨st', o, h1, h2.ok, fun ho s => ?_, fun v ho => ⟨(h4 v ho).1, fun s => ?_⟩⟩
  all_goals
    subst ho
    have := h3.shared s
    have := h3.exclusive s
    have hb := h3.reborrowed s
    simp only [heldAllS, heldAllX, View.sharedOn, View.exclusiveOn] at *
    refine ⟨by omega, hb, by omega⟩

/-- C39, at the end of such a system: dropping its views gives every guard back. -/
theorem C39_parameters_drop (ps : List Param) {st st' : Cells} {vs : List View} (hok : st.Ok) (hr : st.Room (ps.map Param.cost).sum)
    (h : st.takes ps = .ok (st', some vs)) : ∃ st'', st'.dropViews vs = .ok st'' ∧ st''.Ok ∧ SameGuards st st'' := by
  obtain ⟨st1, o, h1, h2, h3, h4⟩ := takes_spec ps (n := 0) ((Good.of hok hr).mono (by omega))
  rw [h] at h1
  cases h1
  obtain ⟨st2, h5, h6, h7⟩ := dropViews_spec vs h2 (h4 vs rfl).2 (fun s => by
    have := h3.shared s
    have := h3.exclusive s
    simp only [heldAllS, heldAllX] at *
    omega)
  refine ⟨st2, h5, h6.ok, fun s => ?_⟩
  have := h3.shared s
  have := h3.exclusive s
  have := h3.reborrowed s
  have := h7.shared s
  have := h7.exclusive s
  have := h7.reborrowed s
  simp only [heldAllS, heldAllX] at *
  refine ⟨by omega, by omega, by omega⟩

/-- The view of the missing unique 3 is given, that of the unique 2, held exclusively, is refused: the first is given back. -/
example : ∃ st', Ex.busy.takes [.orInit 3 true, .orInit 2 false] = .ok (st', none) ∧ (st'.cell allCell).shared = 0 := ⟨_, rfl, rfl⟩
/-- The unique 3 is made for the first parameter: the second one is given it as well, as a shared view. -/
example : ∃ st' vs, Ex.busy.takes [.orDefault 3 false, .orInit 3 false] = .ok (st', some vs) ∧ (st'.cell 3).shared = 2
    ∧ (st'.cell allCell).shared = 3 := ⟨_, _, rfl, rfl, rfl⟩

end Verif.Borrow
