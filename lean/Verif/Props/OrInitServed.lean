import Verif.Props.OrInitGranted

/-!
# C84 for systems with `UniqueOrInitView(Mut)` and `UniqueOrDefaultView(Mut)`

With the unique there, they are given exactly when `UniqueView(Mut)` is.
-/
namespace Verif.Borrow

theorem Lent.Is.all {g : Lent} {st st' : Cells} {d : Int} (hi : g.Is st) (h : Moves st st' (only allCell d) (fun _ => 0))
    (hp : st'.present = st.present) : g.Is st' := fun k hk => by
  obtain ⟨i1, i2, i3⟩ := hi k hk
  have m1 := h.shared k
  have m2 := h.exclusive k
  simp only [only, hk, if_false] at m1
  exact ⟨by omega, by omega, by rw [hp]; exact i3⟩

theorem orInit_take {env st st' : Cells} {n : Nat} {s : Nat} {x : Bool} {o : Option View} {g : Lent} (he : SameEnv env st)
    (hg : Good st (n + 3)) (hsync : st.isSync allCell = true) (hx : (st.cell allCell).exclusive = 0) (hs : s ≠ allCell)
    (hp : st.present s = true) (hi : g.Is st) (h : st.orInit s x = .ok (st', o)) :
    o.isSome = (g.take env (.view s x false true)).2 ∧ (g.take env (.view s x false true)).1.Is st' := by
  obtain ⟨st1, got, h1, h2, h3, _⟩ := guard_spec (n := n + 2) allCell false hg hg.ok.base.1
  have e := all_got hg hsync h1
  rw [hx] at e
  simp at e
  subst e
  unfold Cells.orInit at h
  simp only [h1, Except.bind, Bool.true_eq_false, if_false] at h
  have e1 := h3.shared allCell
  simp [only] at e1
  obtain ⟨st2, h4, h5, h6⟩ := cloneAll_spec (n := n + 1) true h2 (fun _ => by omega)
  rw [h4] at h
  dsimp only at h
  have e2 := h6.shared allCell
  simp [only] at e2
  have hp2 : st2.present = st.present := (cloneAll_present h4).trans (guard_present h1)
  have hi2 : g.Is st2 := hi.all (d := 2)
    ((h3.trans h6).congr (fun k => by by_cases hk : k = allCell <;> simp [only, hk]) (fun k => by simp [only])) hp2
  obtain ⟨st3, o3, h7, h8, h9, _⟩ := borrowView_spec (n := n) s x false true true h5 (fun _ => by omega)
  obtain ⟨t1, t2⟩ := borrowView_take (n := n) ((he.moves h3).moves h6) h5 (fun _ => by omega) hs hi2 h7
  rw [h7] at h
  dsimp only at h
  cases o3 with
  | some v =>
    cases h
    exact ⟨t1, t2⟩
  | none =>
    rw [hp2, hp] at h
    simp only [Bool.true_eq_false, if_false] at h
    have e3 := h9.shared allCell
    simp [heldS, allD] at e3
    obtain ⟨st4, a1, a2, a3⟩ := dropAll_spec true h8 (fun _ => by omega)
    rw [a1] at h
    cases h
    exact ⟨t1, t2.all (d := -1) (a3.congr (fun _ => rfl) (fun _ => rfl)) (dropAll_present a1)⟩

theorem orDefault_take {env st st' : Cells} {n : Nat} {s : Nat} {x : Bool} {o : Option View} {g : Lent} (he : SameEnv env st)
    (hg : Good st (n + 3)) (hsync : st.isSync allCell = true) (hx : (st.cell allCell).exclusive = 0) (hs : s ≠ allCell)
    (hp : st.present s = true) (hi : g.Is st) (h : st.orDefault s x = .ok (st', o)) :
    o.isSome = (g.take env (.view s x false true)).2 ∧ (g.take env (.view s x false true)).1.Is st' := by
  obtain ⟨st1, got, h1, h2, h3, _⟩ := guard_spec (n := n + 2) allCell false hg hg.ok.base.1
  have e := all_got hg hsync h1
  rw [hx] at e
  simp at e
  subst e
  have hp1 := guard_present h1
  unfold Cells.orDefault at h
  simp only [h1, Except.bind, Bool.true_eq_false, if_false, hp1, hp] at h
  have e1 := h3.shared allCell
  simp [only] at e1
  have hi1 : g.Is st1 := hi.all (d := 1) (h3.congr (fun k => by simp [only]) (fun k => by simp [only])) hp1
  obtain ⟨st2, o2, h4, h5, h6, h7⟩ := borrowView_spec (n := n + 1) s x false true false h2 (fun h => by cases h)
  obtain ⟨t1, t2⟩ := borrowView_take (n := n + 1) (he.moves h3) h2 (fun h => by cases h) hs hi1 h4
  rw [h4] at h
  dsimp only at h
  cases o2 with
  | none =>
    have e2 := h6.shared allCell
    simp [heldS, allD] at e2
    obtain ⟨st4, a1, a2, a3⟩ := dropAll_spec true h5 (fun _ => by omega)
    dsimp only at h
    rw [a1] at h
    cases h
    exact ⟨t1, t2.all (d := -1) (a3.congr (fun _ => rfl) (fun _ => rfl)) (dropAll_present a1)⟩
  | some v =>
    obtain ⟨rfl, hcl⟩ := h7 v rfl
    obtain ⟨st3, h8, h9, h10⟩ := dropView_spec (.view s x false) h5 hcl (fun k => by
      have a := h6.shared k
      have b := h6.exclusive k
      simp only [heldS, heldX, allD, Bool.false_eq_true, false_and, if_false] at a b
      constructor <;> omega)
    dsimp only at h
    rw [h8] at h
    dsimp only at h
    have a := h6.shared allCell
    have b := h10.shared allCell
    simp only [heldS, allD, Bool.false_eq_true, false_and, if_false] at a b
    have hi3 : g.Is st3 := fun k hk => by
      obtain ⟨i1, i2, i3⟩ := hi1 k hk
      have m3 := h6.shared k
      have m4 := h6.exclusive k
      have m5 := h10.shared k
      have m6 := h10.exclusive k
      simp only [heldS, heldX, allD, Bool.false_eq_true, if_false, false_and] at m3 m4
      refine ⟨by omega, by omega, ?_⟩
      have q := (t2 k hk).2.2
      rw [dropView_present _ h8, ← q, Lent.take]
      simp only [Bool.false_eq_true, if_false]
      split
      · cases x <;> rfl
      · rfl
    exact borrowView_take (n := n) (((he.moves h3).moves h6).moves h10) h9 (fun _ => by omega) hs hi3 h

theorem param_take (p : Param) {env st st' : Cells} {n : Nat} {o : Option View} {g : Lent} (hv : p.IsView) (he : SameEnv env st)
    (hg : Good st (n + p.cost)) (hsync : st.isSync allCell = true) (hx : (st.cell allCell).exclusive = 0)
    (hl : ∀ l ∈ p.declares, l.1 ≠ allCell) (hp : (∀ r, p ≠ .req r) → ∀ l ∈ p.declares, st.present l.1 = true) (hi : g.Is st)
    (h : st.param p = .ok (st', o)) :
    o.isSome = (g.take env p.needing).2 ∧ (g.take env p.needing).1.Is st' ∧ (st'.cell allCell).exclusive = 0 := by
  obtain ⟨_, _, h1, _, hm, hgiven⟩ := param_spec p hg
  rw [h] at h1
  cases h1
  have hex : (st'.cell allCell).exclusive = 0 := by
    have m := hm.exclusive allCell
    cases o with
    | none => simp only [heldX] at m; omega
    | some v =>
      have hv0 : v.exclusiveOn allCell = 0 := by
        have hgv := (hgiven v rfl).1
        match p, hv, hl, hgv with
        | .req (.views r), _, hl, hgv =>
          have hgv : WAnswers (.views r) v := hgv
          cases hgv with
          | views hgv => exact exclusiveOn_all r hgv hl
        | .orDefault s x, _, hl, hgv =>
          have : s ≠ allCell := hl (s, x) (by simp [Param.declares])
          rw [show v = .view s x true from hgv]
          simp [View.exclusiveOn, this.symm]
        | .orInit s x, _, hl, hgv =>
          have : s ≠ allCell := hl (s, x) (by simp [Param.declares])
          rw [show v = _ from hgv]
          split <;> simp [View.exclusiveOn, View.exclusiveOnAll, this.symm]
      simp only [heldX] at m
      omega
  rw [← and_assoc]
  refine ⟨?_, hex⟩
  match p, hv with
  | .req (.views r), _ => exact worldBorrow_take (n := n) (r := r) he (hg.mono (by simp only [Param.cost, WReq.cost]; omega)) hsync hx hl hi h
  | .orDefault s x, _ =>
    exact orDefault_take he hg hsync hx (hl (s, x) (by simp [Param.declares])) (hp (by simp) (s, x) (by simp [Param.declares])) hi h
  | .orInit s x, _ =>
    exact orInit_take he hg hsync hx (hl (s, x) (by simp [Param.declares])) (hp (by simp) (s, x) (by simp [Param.declares])) hi h

theorem takes_take (ps : List Param) {env st : Cells} {n : Nat} {g : Lent} (hv : ∀ p ∈ ps, p.IsView) (he : SameEnv env st)
    (hg : Good st (n + (ps.map Param.cost).sum)) (hsync : st.isSync allCell = true) (hx : (st.cell allCell).exclusive = 0)
    (hl : ∀ p ∈ ps, ∀ l ∈ p.declares, l.1 ≠ allCell)
    (hp : ∀ p ∈ ps, (∀ r, p ≠ .req r) → ∀ l ∈ p.declares, st.present l.1 = true) (hi : g.Is st) :
    ∃ st' o, st.takes ps = .ok (st', o) ∧ o.isSome = (g.takeAll env (ps.map Param.needing)).2 := by
  induction ps generalizing st n g with
  | nil => exact ⟨st, some [], rfl, by rw [List.map_nil, Lent.takeAll]; rfl⟩
  | cons p ps ih =>
    obtain ⟨st', o, h, _⟩ := takes_spec _ hg
    refine ⟨st', o, h, ?_⟩
    rw [List.map_cons, List.sum_cons] at hg
    have hg1 : Good st (n + (ps.map Param.cost).sum + p.cost) := hg.mono (by omega)
    obtain ⟨st1, o1, a1, a2, a3, a4⟩ := param_spec p hg1
    obtain ⟨t1, t2, t3⟩ := param_take p (hv p (by simp)) he hg1 hsync hx (hl p (by simp)) (hp p (by simp)) hi a1
    rw [Cells.takes] at h
    simp only [a1, Except.bind] at h
    rw [List.map_cons, Lent.takeAll]
    generalize g.take env p.needing = q at t1 t2 ⊢
    obtain ⟨g', b⟩ := q
    cases o1 with
    | none =>
      cases h
      cases t1
      rfl
    | some v =>
      cases t1
      obtain ⟨st2, o2, b1, b2⟩ := ih (fun p h => hv p (by simp [h])) (he.moves a3) a2 (by rw [a3.setup.isSync]; exact hsync) t3
        (fun p h => hl p (by simp [h])) (fun p h hr l hm => a3.setup.present _ (hp p (by simp [h]) hr l hm)) t2
      simp only [b1] at h
      simp only
      generalize g'.takeAll env (ps.map Param.needing) = q at b2 ⊢
      obtain ⟨g'', b⟩ := q
      cases o2 with
      | some vs =>
        cases h
        cases b2
        rfl
      | none =>
        cases b2
        simp only at h
        cases h3 : st2.dropView v with
        | error e => rw [h3] at h; cases h
        | ok st3 =>
          rw [h3] at h
          cases h
          rfl

theorem needing_declares {p : Param} (hv : p.IsView) : p.needing.leaves = p.declares := by
  match p, hv with
  | .req (.views r), _ => rfl
  | .orDefault s x, _ => simp [Param.needing, Param.declares, Req.leaves]
  | .orInit s x, _ => simp [Param.needing, Param.declares, Req.leaves]

theorem needing_constraints (ps : List Param) (hv : ∀ p ∈ ps, p.IsView) :
    (ps.map fun p => Param.req (.views p.needing)).flatMap Param.declares = ps.flatMap Param.declares := by
  induction ps with
  | nil => rfl
  | cons p ps ih =>
    rw [List.map_cons, List.flatMap_cons, List.flatMap_cons, ih fun p h => hv p (by simp [h]), ← needing_declares (hv p (by simp))]
    rfl

/-- C84, the answer yes, for systems with `UniqueOrDefaultView(Mut)` and `UniqueOrInitView(Mut)` too: they are all given their views. The
hypothesis `Takes` is about the same system with `UniqueView(Mut)` instead, which has the same storages with the same access. -/
theorem C84_yes_or_partial {st st' : Cells} {main : Nat} (hok : st.Ok) (hidle : Idle st main) (hroom : st.Room 1)
    {types : Nat → StoType} (hreg : Regular types) {systems : List USys} (hview : ∀ x ∈ systems, ∀ p ∈ x.params, p.IsView)
    (hsys : ∀ x ∈ systems, Takes st main types x.needing ((x.params.map Param.needing).map .views))
    (hcost : ∀ x ∈ systems, st.Room (x.params.map Param.cost).sum)
    (h : st.uniquesPresent types systems = .ok (st', .ok)) : ∀ x ∈ systems, Served st x := by
  obtain ⟨s1, h1, _, _⟩ := uniquesPresent_eq hok hidle hroom types systems
  rw [h1] at h
  intro x hx
  have hn : ∀ l ∈ x.constraints, ¬ Missing types st l :=
    (checkSystems_none hreg (ls := systems.map USys.constraints)).mp (by
      cases hc : checkSystems types st.present (systems.map USys.constraints) with
      | none => rfl
      | some l => rw [hc] at h; cases h) _ (List.mem_map.mpr ⟨x, hx, rfl⟩)
  have hT := hsys x hx
  have hcon : x.needing.constraints = x.constraints :=
    needing_constraints x.params (hview x hx)
  obtain ⟨st2, vs, h2⟩ := served_of hok hidle hT (by rw [hcon]; exact hn)
  have hz : (st.cell allCell).exclusive = 0 := by
    have := hidle.guards allCell
    unfold Cell.guards at this
    omega
  have hl : ∀ p ∈ x.params, ∀ l ∈ p.declares, l.1 ≠ allCell := fun p hp l hm =>
    hT.plain.storage (.views p.needing) (by simp only [List.mem_map]; exact ⟨_, ⟨p, hp, rfl⟩, rfl⟩) l
      (by rw [← needing_declares (hview x hx p hp)] at hm; exact hm)
  have hpres : ∀ p ∈ x.params, (∀ r, p ≠ .req r) → ∀ l ∈ p.declares, st.present l.1 = true := by
    intro p hp hr l hm
    have ht := hT.typed p.needing (by simp only [List.mem_map]; exact ⟨_, ⟨p, hp, rfl⟩, rfl⟩)
    have hnm := hn l (List.mem_flatMap.mpr ⟨p, hp, hm⟩)
    have key : ∀ s b, l = (s, b) → (Req.view s b false true).Typed types → st.present l.1 = true := by
      intro s b hl' ht
      subst hl'
      rw [Req.Typed] at ht
      rcases ht.2 with ⟨rfl, _⟩ | ⟨hc, _⟩ | ⟨_, a, ha⟩
      · exact hok.base.2
      · cases hc
      · cases hps : st.present s with
        | true => rfl
        | false => exact absurd ⟨by show (types s).IsUnique; rw [ha]; trivial, hps⟩ hnm
    cases p with
    | req r => exact absurd rfl (hr r)
    | orDefault s b => exact key s b (by simpa [Param.declares] using hm) ht
    | orInit s b => exact key s b (by simpa [Param.declares] using hm) ht
  have hg := (Good.of hok (hcost x hx)).mono (m := 0 + (x.params.map Param.cost).sum) (by omega)
  obtain ⟨st3, o, h3, h4⟩ := takes_take x.params (hview x hx) (show SameEnv st st from ⟨rfl, rfl, rfl⟩) hg hidle.sync hz hl hpres (Lent.of_is st)
  have hpar : st.params ((x.params.map Param.needing).map .views) = .ok (st2, some vs) := by
    rw [← takes_req, List.map_map, List.map_map]
    exact h2
  have h5 := (params_take (x.params.map Param.needing) (n := 0) (show SameEnv st st from ⟨rfl, rfl, rfl⟩)
    ((Good.of hok hT.cost).mono (by omega)) hidle.sync hz (by
      intro l hm
      have : ∀ rs : List Req, l ∈ Req.leavesAll rs → ∃ r ∈ rs, l ∈ r.leaves := by
        intro rs
        induction rs with
        | nil => simp [Req.leavesAll]
        | cons r rs ih =>
          intro h
          simp only [Req.leavesAll, List.mem_append] at h
          rcases h with h | h
          · exact ⟨r, by simp, h⟩
          · obtain ⟨q, hq, hm⟩ := ih h
            exact ⟨q, by simp [hq], hm⟩
      obtain ⟨r, hr, hm⟩ := this _ hm
      exact hT.plain.storage (.views r) (List.mem_map.mpr ⟨r, hr, rfl⟩) l hm) (Lent.of_is st) hpar).1
  rw [← h5] at h4
  cases o with
  | none => cases h4
  | some vs' => exact ⟨st3, vs', h3⟩

/-- C84 for such systems: the answer is yes exactly when every system would be given its views if it had `UniqueView(Mut)` in place of
`UniqueOrDefaultView(Mut)` and `UniqueOrInitView(Mut)`. This is what the false alarms of `C84_alarm_fails` are. -/
theorem C84_exact_or_partial {st : Cells} {main : Nat} (hok : st.Ok) (hidle : Idle st main) (hroom : st.Room 1)
    {types : Nat → StoType} (hreg : Regular types) (hall : types allCell = .allStorages) {systems : List USys}
    (hview : ∀ x ∈ systems, ∀ p ∈ x.params, p.IsView)
    (hsys : ∀ x ∈ systems, Takes st main types x.needing ((x.params.map Param.needing).map .views)
      ∧ ∀ p ∈ x.params, p.needing.NoOpt) :
    ∃ st' r, st.uniquesPresent types systems = .ok (st', r) ∧ SameGuards st st' ∧ st'.present = st.present
      ∧ (r = .ok ↔ ∀ x ∈ systems, Served st x.needing) := by
  have hcon : (systems.map USys.needing).map USys.constraints = systems.map USys.constraints := by
    rw [List.map_map]
    exact List.map_congr_left fun x hx => needing_constraints x.params (hview x hx)
  obtain ⟨st', r, h1, h2, h3, h4⟩ := C84_exact_partial (systems := systems.map USys.needing) hok hidle hroom hreg hall (by
    intro y hy
    obtain ⟨x, hx, rfl⟩ := List.mem_map.mp hy
    refine ⟨_, (hsys x hx).1, fun q hq => ?_⟩
    simp only [List.mem_map, WReq.views.injEq, exists_eq_right] at hq
    obtain ⟨p, hp, rfl⟩ := hq
    exact (hsys x hx).2 p hp)
  refine ⟨st', r, ?_, h2, h3, h4.trans ?_⟩
  · unfold Cells.uniquesPresent at h1 ⊢
    rw [hcon] at h1
    exact h1
  · simp only [List.mem_map, forall_exists_index, and_imp, forall_apply_eq_imp_iff₂]

/-- C84, the answer no, for such systems: it names the first missing unique that a system asks for with a view that needs it or with one
that does not. If their views needed their uniques, the systems before it would be served and its own would not. -/
theorem C84_first_or_partial {st st' : Cells} {main : Nat} (hok : st.Ok) (hidle : Idle st main) (hroom : st.Room 1)
    {types : Nat → StoType} (hreg : Regular types) (hall : types allCell = .allStorages) {systems : List USys}
    (hview : ∀ x ∈ systems, ∀ p ∈ x.params, p.IsView)
    (hsys : ∀ x ∈ systems, Takes st main types x.needing ((x.params.map Param.needing).map .views)
      ∧ ∀ p ∈ x.params, p.needing.NoOpt)
    {l : Nat × Bool} (h : st.uniquesPresent types systems = .ok (st', .unique l)) :
    ∃ before x after, systems = before ++ x :: after ∧ (∀ y ∈ before, Served st y.needing) ∧ Unserved st x.needing
      ∧ ∃ ls ls', x.params.flatMap Param.declares = ls ++ l :: ls' ∧ (types l.1).IsUnique ∧ st.present l.1 = false
        ∧ ∀ k ∈ ls, (types k.1).IsUnique → st.present k.1 = true := by
  have hcon : (systems.map USys.needing).map USys.constraints = systems.map USys.constraints := by
    rw [List.map_map]
    exact List.map_congr_left fun x hx => needing_constraints x.params (hview x hx)
  have h' : st.uniquesPresent types (systems.map USys.needing) = .ok (st', .unique l) := by
    unfold Cells.uniquesPresent at h ⊢
    rw [hcon]
    exact h
  obtain ⟨b, y, a, e, h1, h2, ls, ls', h3, h4⟩ := C84_first_partial hok hidle hroom hreg hall (by
    intro y hy
    obtain ⟨x, hx, rfl⟩ := List.mem_map.mp hy
    refine ⟨_, (hsys x hx).1, fun q hq => ?_⟩
    simp only [List.mem_map, WReq.views.injEq, exists_eq_right] at hq
    obtain ⟨p, hp, rfl⟩ := hq
    exact (hsys x hx).2 p hp) h'
  obtain ⟨b', r, rfl, rfl, er⟩ := List.map_eq_append_iff.mp e
  obtain ⟨x, a', rfl, rfl, rfl⟩ := List.map_eq_cons_iff.mp er
  refine ⟨b', x, a', rfl, fun z hz => h1 _ (List.mem_map.mpr ⟨z, hz, rfl⟩), h2, ls, ls', ?_, h4⟩
  rw [← h3]
  exact (needing_constraints x.params (hview x (by simp))).symm

namespace Ex

/-- `fn(EntitiesView, ViewMut<A>, UniqueOrInitViewMut<B>)` and `fn(EntitiesView, ViewMut<A>, UniqueOrDefaultViewMut<B>)` -/
def lenient (p : Param) : USys := ⟨[.req (.views (.view 1 false false true)), .req (.views (.view 2 true true true)), p], []⟩

/-- Non-vacuity: the answer is yes and both systems are served. -/
example : ∀ x ∈ [lenient (.orInit 3 true), lenient (.orDefault 3 true)], Served world x := by
  obtain ⟨_, h, _⟩ := uniquesPresent_eq world_ok world_idle (world_room 1 (by decide)) types
    [lenient (.orInit 3 true), lenient (.orDefault 3 true)]
  have hreg : Regular types := fun s n h => by
    match s with
    | 0 | 1 | 2 | 3 => cases h
    | _ + 4 => cases h
  refine C84_yes_or_partial world_ok world_idle (world_room 1 (by decide)) hreg ?_ ?_ ?_ h
  all_goals
    intro x hx
    simp only [List.mem_cons, List.not_mem_nil, or_false] at hx
    rcases hx with rfl | rfl
  · intro p hp
    simp only [lenient, List.mem_cons, List.not_mem_nil, or_false] at hp
    rcases hp with rfl | rfl | rfl <;> trivial
  · intro p hp
    simp only [lenient, List.mem_cons, List.not_mem_nil, or_false] at hp
    rcases hp with rfl | rfl | rfl <;> trivial
  · exact ready_takes
  · exact ready_takes
  · exact world_room _ (by decide)
  · exact world_room _ (by decide)

/-- With the missing unique 4 the answer is no; the system would be served, the one that needs the unique would not. -/
example : (world.uniquesPresent types [lenient (.orInit 4 true)]).map (·.2) = .ok (.unique (4, true)) ∧ Served world (lenient (.orInit 4 true))
    ∧ Unserved world (lenient (.orInit 4 true)).needing := ⟨rfl, ⟨_, _, rfl⟩, ⟨_, rfl⟩⟩
example : ∀ p ∈ (lenient (.orInit 3 true)).params, p.needing.NoOpt := by
  intro p hp
  simp only [lenient, List.mem_cons, List.not_mem_nil, or_false] at hp
  rcases hp with rfl | rfl | rfl <;> trivial

end Ex

end Verif.Borrow
