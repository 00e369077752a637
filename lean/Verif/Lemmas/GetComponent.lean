import Verif.Spec.GetComponent
import Verif.Lemmas.Views
import Verif.Lemmas.BorrowViews

namespace Verif.GetComp
open Borrow WSpec World
open StoSpec (Valid)
open EntSpec (Event)
variable {V : Type} {fl : Flags}

theorem OnlyMade.refl (w : World V) : OnlyMade w w := ⟨rfl, fun _ _ h => h, fun _ _ => rfl⟩

theorem OnlyMade.trans {a b c : World V} (h : OnlyMade a b) (h' : OnlyMade b c) : OnlyMade a c :=
  ⟨h'.ents.trans h.ents, fun k s hs => h'.kept k s (h.kept k s hs), fun k e => (h'.same k e).trans (h.same k e)⟩

theorem newSto_get (k : Nat) (e : EId) : (newSto fl k : SparseSet V).get e = .ok none := by
  unfold newSto SparseSet.new SparseSet.get SparseSet.indexOf SparseArray.get
  simp [SparseArray.new, bind, Except.bind]

theorem create_lookup (w : World V) (k j : Nat) :
    lookupK (w.create fl k).stos j = if j = k then some (w.stoOr fl k) else lookupK w.stos j := put_lookup _ _ _ _

theorem create_only (w : World V) (k : Nat) : OnlyMade w (w.create fl k) := by
  refine ⟨rfl, fun j s hs => ?_, fun j e => ?_⟩
  · rw [create_lookup]
    by_cases hj : j = k
    · subst hj; rw [if_pos rfl]; unfold stoOr; rw [hs]; rfl
    · rw [if_neg hj]; exact hs
  · unfold World.get
    rw [create_lookup]
    by_cases hj : j = k
    · subst hj; rw [if_pos rfl]; unfold stoOr
      cases hs : lookupK w.stos j with
      | some s => rfl
      | none => exact newSto_get j e
    · rw [if_neg hj]

theorem Handle.For.mono {hd : Handle} {w w' : World V} {e : EId} (h : hd.For w e) (hm : OnlyMade w w') : hd.For w' e := by
  obtain ⟨s, c, h1, h2, h3⟩ := h
  exact ⟨s, c, hm.kept _ _ h1, h2, h3⟩

theorem get_of_index {s : SparseSet V} {e : EId} {i : Nat} (hi : s.indexOf e = .ok (some i)) :
    s.get e = (vecGetU s.data i).bind fun c => .ok (some c) := by
  unfold SparseSet.get
  rw [hi]
  rfl

/-- Whether the entity has the component. -/
def found (w : World V) (k : Nat) (e : EId) : Bool :=
  match w.get k e with
  | .ok (some _) => true
  | _ => false

theorem found_mono {w w' : World V} (hm : OnlyMade w w') (k : Nat) (e : EId) : found w' k e = found w k e := by
  unfold found; rw [hm.same]

def reqOf (w : World V) (e : EId) (q : Nat × Bool) : Req := .view (cellOf q.1) q.2 true (found w q.1 e)

/-- One request, seen as the borrow of a view which is refused when the component is missing. -/
theorem getOne_spec {w : World V} {h : List Event} (hr : Reach fl w h) {e : EId} (hg : e.gen < 65535)
    {st : Cells} {n : Nat} (all : Bool) (now k : Nat) (x : Bool) (hgood : Good st (n + 1))
    (hs : all = true → (st.cell allCell).shared ≠ 0) :
    ∃ st' w' r, getOne fl st w all now e k x = .ok (st', w', r) ∧ OnlyMade w w' ∧ Reach fl w' h ∧ Good st' n ∧
      match r with
      | .ok hd => st.borrowView (cellOf k) x true (found w k e) all = .ok (st', some hd.view) ∧
          hd.k = k ∧ hd.exclusive = x ∧ hd.For w' e ∧ hd.current = now ∧ hd.all = all ∧ w.get k e ≠ .ok none
      | .error err => st.borrowView (cellOf k) x true (found w k e) all = .ok (st', none) ∧
          ((err = .missing e k ∧ w.get k e = .ok none) ∨ (err = .borrow k ∧ Refused st (cellOf k) x)) := by
  have hc := create_only (fl := fl) w k
  have hr' : Reach fl (w.create fl k) h := .create k hr
  have hl : lookupK (w.create fl k).stos k = some (w.stoOr fl k) := by rw [create_lookup, if_pos rfl]
  obtain ⟨c, i, h1, h2, h3, h4, -⟩ := view_find hr' hl hg
  rw [hc.same] at h1
  obtain ⟨g1, g2, g3⟩ := create_spec (cellOf k) hgood
  obtain ⟨st1, got, b1, b2, b3, b4, b5⟩ := guard_spec (n := n) (cellOf k) x g1 g3
  have hs1 : all = true → (st1.cell allCell).shared ≠ 0 := by
    intro ha
    have e1 := g2.shared allCell
    have e2 := b3.shared allCell
    have e3 := hs ha
    rw [show only (cellOf k) (if (got && !x) = true then (1 : Int) else 0) allCell = 0 from
      if_neg (show ¬ allCell = cellOf k by unfold allCell cellOf; omega)] at e2
    omega
  unfold getOne
  simp only [b1, Except.bind, hl]
  have hbv : ∀ t, st.borrowView (cellOf k) x true t all =
      (if got = false then (st1.dropAll all).map (·, none)
       else if t = false then (st1.dropGuard (cellOf k) x).bind fun st => (st.dropAll all).map (·, none)
       else .ok (st1, some (.view (cellOf k) x all))) := by
    intro t
    unfold Cells.borrowView
    simp only [if_true, g3, Bool.true_eq_false, if_false]
    rw [b1]
    rfl
  cases got with
  | false =>
    obtain ⟨st2, d1, d2, -⟩ := dropAll_spec all b2 hs1
    have := b5 rfl
    refine ⟨st2, _, .error (.borrow k), by rw [if_pos rfl, d1]; rfl, hc, hr', d2, ?_, .inr ⟨rfl, ?_⟩⟩
    · rw [hbv, if_pos rfl, d1]; rfl
    · unfold Refused Cell.guards at this ⊢
      rw [g2.setup.isSync, g2.setup.owner, g2.setup.me] at this
      have e1 := g2.shared (cellOf k)
      have e2 := g2.exclusive (cellOf k)
      have e3 := g2.reborrowed (cellOf k)
      rcases this with h | ⟨h, h'⟩ | ⟨h, h'⟩
      · exact .inl (by omega)
      · exact .inr (.inl ⟨h, by omega⟩)
      · exact .inr (.inr ⟨h, h'⟩)
  | true =>
    rw [if_neg (by simp), h3]
    cases c with
    | none =>
      cases i with
      | some i => simp at h4
      | none =>
        have hf : found w k e = false := by unfold found; rw [h1]
        have b4' := b4 rfl
        have hne : (x = false → (st1.cell (cellOf k)).shared ≠ 0) ∧
            (x = true → (st1.cell (cellOf k)).exclusive ≠ 0 ∧ (st1.cell (cellOf k)).reborrowed = 0) := by
          have e1 := b3.shared (cellOf k)
          have e2 := b3.exclusive (cellOf k)
          have e3 := b3.reborrowed (cellOf k)
          unfold only at e1 e2
          rw [if_pos rfl] at e1 e2
          constructor
          · intro hx; subst hx; simp at e1; omega
          · intro hx; subst hx; simp at e2; have := b4' rfl; exact ⟨by omega, by omega⟩
        obtain ⟨st2, d1, d2, d3⟩ := dropGuard_spec (cellOf k) x b2 (b3.setup.present _ g3) hne.1 hne.2
        have hs2 : all = true → (st2.cell allCell).shared ≠ 0 := by
          intro ha
          have e2 := d3.shared allCell
          have e3 := hs1 ha
          rw [show only (cellOf k) (if x = true then (0 : Int) else -1) allCell = 0 from
            if_neg (show ¬ allCell = cellOf k by unfold allCell cellOf; omega)] at e2
          omega
        obtain ⟨st3, f1, f2, -⟩ := dropAll_spec all d2 hs2
        refine ⟨st3, _, .error (.missing e k), by simp only [d1, f1]; rfl, hc, hr', f2, ?_, .inl ⟨rfl, h1⟩⟩
        rw [hbv, if_neg (by simp), hf, if_pos rfl, d1]
        simp only [Except.bind]
        rw [f1]; rfl
    | some c =>
      cases i with
      | none => simp at h4
      | some i =>
        have hf : found w k e = true := by unfold found; rw [h1]
        have hv : ∃ y, vecGetU (w.stoOr fl k).data i = .ok y := by
          have := get_of_index h3
          rw [h2] at this
          cases hy : vecGetU (w.stoOr fl k).data i with
          | ok y => exact ⟨y, rfl⟩
          | error f => rw [hy] at this; cases this
        obtain ⟨y, hy⟩ := hv
        refine ⟨st1, _, .ok ⟨k, i, x, now, all⟩, by simp only [hy], hc, hr', b2, ?_, rfl, rfl, ⟨_, c, hl, h3, h2⟩, rfl, rfl,
          by rw [h1]; intro hh; cases hh⟩
        rw [hbv, if_neg (by simp), hf, if_neg (by simp)]
        rfl

theorem getEach_spec {h : List Event} {e : EId} (hg : e.gen < 65535) (all : Bool) (now : Nat) (qs : List (Nat × Bool))
    {w : World V} (hr : Reach fl w h) {st : Cells} {n : Nat} (hgood : Good st (n + 2 * qs.length))
    (hs : all = true → (st.cell allCell).shared ≠ 0) :
    ∃ st' w' r, getEach fl st w all now e qs = .ok (st', w', r) ∧ OnlyMade w w' ∧ Reach fl w' h ∧
      match r with
      | .ok hds => st.borrowEach all (qs.map (reqOf w e)) = .ok (st', some (hds.map Handle.view)) ∧
          Handles w' e now all qs hds ∧ (∀ q ∈ qs, w.get q.1 e ≠ .ok none)
      | .error err => st.borrowEach all (qs.map (reqOf w e)) = .ok (st', none) ∧
          ((∃ q ∈ qs, err = .missing e q.1 ∧ w.get q.1 e = .ok none) ∨
           ∃ pre k x post, qs = pre ++ (k, x) :: post ∧ err = .borrow k ∧
            (Refused st (cellOf k) x ∨ k ∈ pre.map Prod.fst)) := by
  induction qs generalizing w st with
  | nil =>
    refine ⟨st, w, .ok [], rfl, .refl w, hr, by simp [Cells.borrowEach], ⟨rfl, fun _ h => by cases h⟩, fun _ h => by cases h⟩
  | cons q qs ih =>
    obtain ⟨k, x⟩ := q
    have hlen : n + 2 * ((k, x) :: qs).length = n + 2 * qs.length + 1 + 1 := by simp only [List.length_cons]; omega
    rw [hlen] at hgood
    obtain ⟨st1, c1, c2, c3⟩ := cloneAll_spec (n := n + 2 * qs.length + 1) all hgood hs
    have hs1 : all = true → 2 ≤ (st1.cell allCell).shared := by
      intro ha
      have e1 := c3.shared allCell
      have e2 := hs ha
      subst ha
      rw [if_pos rfl] at e1
      unfold only at e1
      rw [if_pos rfl] at e1
      omega
    obtain ⟨st2, w2, r, o1, o2, o3, o4, o5⟩ := getOne_spec hr hg all now k x c2 (fun ha => by have := hs1 ha; omega)
    have hmap : (qs.map (reqOf w e)) = qs.map (reqOf w2 e) := by
      refine List.map_congr_left fun q _ => ?_
      unfold reqOf
      rw [found_mono o2]
    have hcell : ∀ (j : Nat), j ≠ k → cellOf j ≠ cellOf k ∧ cellOf j ≠ allCell := by
      intro j hj; unfold cellOf allCell; omega
    simp only [getEach]
    rw [c1]
    simp only [Except.bind]
    rw [o1]
    simp only [List.map_cons]
    have hbe : st.borrowEach all (reqOf w e (k, x) :: qs.map (reqOf w e)) =
        ((st1.borrowView (cellOf k) x true (found w k e) all).bind fun (st, v) =>
          match v with
          | none => .ok (st, none)
          | some v =>
            (st.borrowEach all (qs.map (reqOf w e))).bind fun (st, vs) =>
            match vs with
            | none => (st.dropView v).map (·, none)
            | some vs => .ok (st, some (v :: vs))) := by
      rw [Cells.borrowEach, c1]
      simp only [Except.bind]
      rw [show reqOf w e (k, x) = .view (cellOf k) x true (found w k e) from rfl, Cells.borrow]
      rfl
    obtain ⟨st2', o, v1, v2, v3, v4⟩ := borrowView_spec (n := n + 2 * qs.length) (cellOf k) x true (found w k e) all c2
      (fun ha => by have := hs1 ha; omega)
    cases r with
    | error err =>
      simp only at o5
      refine ⟨st2, w2, .error err, rfl, o2, o3, ?_, ?_⟩
      · rw [hbe, o5.1]; rfl
      · rcases o5.2 with ⟨h1, h2⟩ | ⟨h1, h2⟩
        · exact .inl ⟨(k, x), List.mem_cons_self, h1, h2⟩
        · refine .inr ⟨[], k, x, qs, rfl, h1, .inl ?_⟩
          unfold Refused Cell.guards at h2 ⊢
          rw [c3.setup.isSync, c3.setup.owner, c3.setup.me] at h2
          have hk0 : ¬ cellOf k = allCell := by unfold cellOf allCell; omega
          have e1 := c3.shared (cellOf k)
          have e2 := c3.exclusive (cellOf k)
          have e3 := c3.reborrowed (cellOf k)
          have : (if all = true then only allCell 1 else fun _ => (0 : Int)) (cellOf k) = 0 := by
            cases all
            · rfl
            · rw [if_pos rfl]; unfold only; rw [if_neg hk0]
          rw [this] at e1
          rcases h2 with h | ⟨h, h'⟩ | ⟨h, h'⟩
          · exact .inl (by omega)
          · exact .inr (.inl ⟨h, by omega⟩)
          · exact .inr (.inr ⟨h, h'⟩)
    | ok hd =>
      simp only at o5
      obtain ⟨p1, p2, p3, p4, p5, p6, p7⟩ := o5
      rw [p1] at v1
      cases v1
      have hclean := (v4 _ rfl).2
      have hs2 : all = true → (st2.cell allCell).shared ≠ 0 := by
        intro ha
        have e1 := v3.shared allCell
        have e2 := hs1 ha
        have : 0 ≤ heldS (some hd.view) allCell := by simp [heldS]
        subst ha
        simp only [allD, and_self, if_true] at e1
        omega
      obtain ⟨st3, w3, r', i1, i2, i3, i4⟩ := ih o3 o4 hs2
      rw [i1]
      simp only
      cases r' with
      | ok hds =>
        simp only at i4
        obtain ⟨j1, j2, j3⟩ := i4
        refine ⟨st3, w3, .ok (hd :: hds), rfl, o2.trans i2, i3, ?_, ⟨?_, ?_⟩, ?_⟩
        · rw [hbe, p1]
          simp only [Except.bind]
          rw [hmap, j1]
          rfl
        · simp only [List.map_cons, j2.asked, p2, p3]
        · intro hd' hd'm
          rcases List.mem_cons.1 hd'm with rfl | hd'm
          · exact ⟨p4.mono i2, p5, p6⟩
          · exact j2.gives _ hd'm
        · intro q hq
          rcases List.mem_cons.1 hq with rfl | hq
          · exact p7
          · rw [← o2.same]; exact j3 q hq
      | error err =>
        simp only at i4
        obtain ⟨j1, j2⟩ := i4
        obtain ⟨st3', oo, k1, k2, k3, -⟩ := borrowEach_spec (qs.map (reqOf w2 e)) (n := n) all (st := st2)
          (o4.mono (by
            have : ∀ l : List (Nat × Bool), Req.costAll (l.map (reqOf w2 e)) = 2 * l.length := by
              intro l
              induction l with
              | nil => rfl
              | cons a l ih => simp only [List.map_cons, Req.costAll, ih, reqOf, Req.cost, List.length_cons]; omega
            rw [this]; omega)) hs2
        rw [j1] at k1
        cases k1
        have hle : ∀ s, hd.view.sharedOn s ≤ (st3.cell s).shared ∧ hd.view.exclusiveOn s ≤ (st3.cell s).exclusive := by
          intro s
          have e1 := c3.shared s
          have e2 := v3.shared s
          have e3 := k3.shared s
          have x1 := c3.exclusive s
          have x2 := v3.exclusive s
          have x3 := k3.exclusive s
          simp only [heldS, heldAllS, heldX, heldAllX, allD] at *
          refine ⟨?_, by omega⟩
          cases all with
          | false => simp at e1 e2; omega
          | true =>
            by_cases hk : s = allCell
            · have := hs1 rfl
              simp [hk] at *
              omega
            · simp [hk] at e1 e2
              omega
        obtain ⟨st4, m1, -, -⟩ := dropView_spec hd.view k2 (hclean.moves k3) hle
        refine ⟨st4, w3, .error err, by rw [m1]; rfl, o2.trans i2, i3, ?_, ?_⟩
        · rw [hbe, p1]
          simp only [Except.bind]
          rw [hmap, j1]
          simp only
          rw [m1]; rfl
        · rcases j2 with ⟨q, h1, h2, h3⟩ | ⟨pre, k', x', post, h1, h2, h3⟩
          · exact .inl ⟨q, List.mem_cons_of_mem _ h1, h2, by rw [← o2.same]; exact h3⟩
          · refine .inr ⟨(k, x) :: pre, k', x', post, by rw [h1]; rfl, h2, ?_⟩
            by_cases hk : k' = k
            · subst hk; exact .inr (by simp)
            · rcases h3 with h3 | h3
              · left
                obtain ⟨n1, n2⟩ := hcell k' hk
                unfold Refused Cell.guards at h3 ⊢
                rw [v3.setup.isSync, v3.setup.owner, v3.setup.me, c3.setup.isSync, c3.setup.owner, c3.setup.me] at h3
                have e1 := c3.shared (cellOf k')
                have e2 := v3.shared (cellOf k')
                have x1 := c3.exclusive (cellOf k')
                have x2 := v3.exclusive (cellOf k')
                have y1 := c3.reborrowed (cellOf k')
                have y2 := v3.reborrowed (cellOf k')
                have z1 : hd.view.sharedOn (cellOf k') = 0 := by
                  unfold Handle.view View.sharedOn
                  rw [p2, if_neg (fun h => n1 h.1), if_neg (fun h => n2 h.1)]
                have z2 : hd.view.exclusiveOn (cellOf k') = 0 := by
                  unfold Handle.view View.exclusiveOn
                  rw [p2, if_neg (fun h => n1 h.1)]
                have z3 : (if all = true then only allCell 1 else fun _ => (0 : Int)) (cellOf k') = 0 := by
                  cases all
                  · rfl
                  · rw [if_pos rfl]; unfold only; rw [if_neg n2]
                have z4 : allD all (cellOf k') = 0 := by
                  unfold allD; rw [if_neg (fun h => n2 (by first | exact h.1 | exact h.2))]
                simp only [heldS, heldX] at e2 x2
                rw [z1, z4] at e2
                rw [z2] at x2
                rw [z3] at e1
                rcases h3 with h | ⟨h, h'⟩ | ⟨h, h'⟩
                · exact .inl (by omega)
                · exact .inr (.inl ⟨h, by omega⟩)
                · exact .inr (.inr ⟨h, h'⟩)
              · exact .inr (by simp only [List.map_cons]; exact List.mem_cons_of_mem _ h3)

theorem cost_reqs (w : World V) (e : EId) (l : List (Nat × Bool)) : Req.costAll (l.map (reqOf w e)) = 2 * l.length := by
  induction l with
  | nil => rfl
  | cons a l ih => simp only [List.map_cons, Req.costAll, ih, reqOf, Req.cost, List.length_cons]; omega

/-- What `r` says. -/
def Says (st : Cells) (w w' : World V) (e : EId) (now : Nat) (all : Bool) (qs : List (Nat × Bool)) (o : Option View) :
    Except GetErr (List Handle) → Prop
  | .ok hds => o = some (.tuple (hds.map Handle.view)) ∧ Handles w' e now all qs hds ∧ ∀ q ∈ qs, w.get q.1 e ≠ .ok none
  | .error err => o = none ∧
      ((∃ q ∈ qs, err = .missing e q.1 ∧ w.get q.1 e = .ok none) ∨
       ∃ pre k x post, qs = pre ++ (k, x) :: post ∧ err = .borrow k ∧ (Refused st (cellOf k) x ∨ k ∈ pre.map Prod.fst))

theorem getTuple_spec {h : List Event} {e : EId} (hg : e.gen < 65535) (all : Bool) (now : Nat) (qs : List (Nat × Bool))
    {w : World V} (hr : Reach fl w h) {st : Cells} (hgood : Good st (2 * qs.length))
    (hs : all = true → (st.cell allCell).shared ≠ 0) :
    ∃ st' w' r o, getTuple fl st w all now e qs = .ok (st', w', r) ∧ OnlyMade w w' ∧ Reach fl w' h ∧
      st.borrow all (.tuple (qs.map (reqOf w e))) = .ok (st', o) ∧ Says st w w' e now all qs o r := by
  obtain ⟨st1, w1, r, h1, h2, h3, h4⟩ := getEach_spec hg all now qs hr (n := 0) (hgood.mono (by omega)) hs
  obtain ⟨st1', o, k1, k2, k3, -⟩ := borrowEach_spec (qs.map (reqOf w e)) (n := 0) all (st := st)
    (hgood.mono (by rw [cost_reqs]; omega)) hs
  have hst : st1' = st1 := by
    cases r <;> simp only at h4 <;> rw [h4.1] at k1 <;> cases k1 <;> rfl
  subst hst
  have hs1 : all = true → (st1'.cell allCell).shared ≠ 0 := by
    intro ha
    have := k3.shared allCell
    have := hs ha
    have : 0 ≤ heldAllS o allCell := by cases o <;> simp [heldAllS]
    omega
  obtain ⟨st2, d1, d2, -⟩ := dropAll_spec all k2 hs1
  refine ⟨st2, w1, r, o.map .tuple, ?_, h2, h3, ?_, ?_⟩
  · unfold getTuple; rw [h1]; simp only [Except.bind]; rw [d1]; rfl
  · rw [Cells.borrow, k1]; simp only [Except.bind]; rw [d1]; rfl
  · cases r with
    | ok hds =>
      simp only at h4
      rw [h4.1] at k1
      cases k1
      exact ⟨rfl, h4.2⟩
    | error err =>
      simp only at h4
      rw [h4.1] at k1
      cases k1
      exact ⟨rfl, h4.2⟩

theorem tick_only (w : World V) : OnlyMade w w.tick := ⟨rfl, fun _ _ h => h, fun _ _ => rfl⟩

theorem reqOf_tick (w : World V) (e : EId) : reqOf w.tick e = reqOf w e := rfl

theorem worldGet_spec {h : List Event} {e : EId} (hg : e.gen < 65535) (qs : List (Nat × Bool))
    {w : World V} (hr : Reach fl w h) {st : Cells} (hgood : Good st (2 * qs.length + 1)) :
    ∃ st' w' r o, worldGet fl st w e qs = .ok (st', w', r) ∧ OnlyMade w w' ∧ Reach fl w' h ∧
      st.worldBorrow (.views (.tuple (qs.map (reqOf w e)))) = .ok (st', o) ∧
      ((r = .error .allBorrow ∧ o = none ∧ Refused st allCell false) ∨
        Says st w w' e w.counter true qs o r) := by
  obtain ⟨st1, got, g1, g2, g3, -, g5⟩ := guard_spec (n := 2 * qs.length) allCell false hgood hgood.ok.base.1
  unfold worldGet Cells.worldBorrow
  rw [g1]
  simp only [Except.bind]
  cases got with
  | false =>
    refine ⟨st1, w, .error .allBorrow, none, rfl, .refl w, hr, rfl, .inl ⟨rfl, rfl, ?_⟩⟩
    exact g5 rfl
  | true =>
    have hs : (st1.cell allCell).shared ≠ 0 := by
      have := g3.shared allCell
      unfold only at this
      rw [if_pos rfl] at this
      simp at this
      omega
    obtain ⟨st', w', r, o, h1, h2, h3, h4, h5⟩ := getTuple_spec hg true w.counter qs (w := w.tick) (.clock _ hr) g2 (fun _ => hs)
    refine ⟨st', w', r, o, by rw [if_neg (by simp)]; exact h1, (tick_only w).trans h2, h3, by rw [if_neg (by simp)]; exact h4, .inr ?_⟩
    cases r with
    | ok hds => exact h5
    | error err =>
      refine ⟨h5.1, ?_⟩
      rcases h5.2 with h | ⟨pre, k, x, post, a1, a2, a3⟩
      · exact .inl h
      · refine .inr ⟨pre, k, x, post, a1, a2, a3.imp (fun h => ?_) id⟩
        have n1 : ¬ cellOf k = allCell := by unfold cellOf allCell; omega
        have e1 := g3.shared (cellOf k)
        have e2 := g3.exclusive (cellOf k)
        have e3 := g3.reborrowed (cellOf k)
        unfold only at e1 e2
        rw [if_neg n1] at e1 e2
        unfold Refused Cell.guards at h ⊢
        rw [g3.setup.isSync, g3.setup.owner, g3.setup.me] at h
        rcases h with h | ⟨h, h'⟩ | ⟨h, h'⟩
        · exact .inl (by omega)
        · exact .inr (.inl ⟨h, by omega⟩)
        · exact .inr (.inr ⟨h, h'⟩)

theorem refuses_of {st : Cells} {s : Nat} {x : Bool} (h : Refused st s x) : Refuses st s x := by
  rcases h with h | ⟨h, h'⟩ | ⟨h, h'⟩
  · exact .inl h
  · exact .inr ⟨h, .inl h'⟩
  · exact .inr ⟨h, .inr h'⟩

theorem answers_handles {all : Bool} {w : World V} {e : EId} {qs : List (Nat × Bool)} {v : View}
    (h : Answers all (.tuple (qs.map (reqOf w e))) v) : ∃ vs, v = .tuple vs := answers_tuple h

theorem Handle.For.read {hd : Handle} {w : World V} {e : EId} (h : hd.For w e) :
    ∃ c, hd.read w = .ok c ∧ w.get hd.k e = .ok (some c) := by
  obtain ⟨s, c, h1, h2, h3⟩ := h
  refine ⟨c, ?_, by rw [get_of_sto h1, h3]⟩
  unfold Handle.read
  rw [h1]
  simp only
  have := get_of_index h2
  rw [h3] at this
  cases hy : vecGetU s.data hd.i with
  | ok y => rw [hy] at this; cases this; rfl
  | error f => rw [hy] at this; cases this

/-- The position of an entity only depends on the sparse array. -/
theorem For_put {hd : Handle} {w : World V} {e : EId} {k : Nat} {s s' : SparseSet V} (hl : lookupK w.stos k = some s)
    (hsp : s'.sparse = s.sparse) (hlen : s'.data.length = s.data.length) (h : hd.For w e) : hd.For (w.put k s') e := by
  obtain ⟨t, c, h1, h2, h3⟩ := h
  by_cases hk : hd.k = k
  · have : t = s := by rw [hk, hl] at h1; cases h1; rfl
    subst this
    have hi : s'.indexOf e = .ok (some hd.i) := by
      unfold SparseSet.indexOf at h2 ⊢
      rw [hsp]; exact h2
    have hlt : hd.i < s'.data.length := by
      rw [hlen]
      have := get_of_index h2
      rw [h3] at this
      unfold vecGetU at this
      cases hy : t.data[hd.i]? with
      | none => rw [hy] at this; cases this
      | some y => exact (List.getElem?_eq_some_iff.1 hy).1
    refine ⟨s', s'.data[hd.i], by rw [put_lookup, if_pos hk], hi, ?_⟩
    rw [get_of_index hi]
    unfold vecGetU
    rw [List.getElem?_eq_getElem hlt]
    rfl
  · exact ⟨t, c, by rw [put_lookup, if_neg hk]; exact h1, h2, h3⟩

/-- Writing through the handle is writing the component of the entity. -/
theorem write_eq {hd : Handle} {w : World V} {e : EId} {s : SparseSet V} (hl : lookupK w.stos hd.k = some s)
    (hi : s.indexOf e = .ok (some hd.i)) {v : V} {s' : SparseSet V}
    (hm : s.modify e hd.current (fun _ => v) = .ok (true, s')) :
    hd.write w v = .ok (w.put hd.k s') ∧ s'.sparse = s.sparse ∧ s'.data.length = s.data.length := by
  unfold SparseSet.modify at hm
  rw [hi] at hm
  simp only [bind, Except.bind] at hm
  unfold Handle.write
  rw [hl]
  simp only [bind, Except.bind]
  cases h1 : setUIf s.trkMod s.modificationData hd.i hd.current with
  | error f => rw [h1] at hm; cases hm
  | ok m =>
    rw [h1] at hm
    simp only at hm ⊢
    cases h2 : vecGetU s.data hd.i with
    | error f => rw [h2] at hm; cases hm
    | ok x =>
      rw [h2] at hm
      simp only at hm
      cases h3 : vecSetU s.data hd.i v with
      | error f => rw [h3] at hm; cases hm
      | ok d =>
        rw [h3] at hm
        cases hm
        refine ⟨rfl, rfl, ?_⟩
        unfold vecSetU at h3
        split at h3
        · cases h3; simp
        · cases h3

theorem index_lt {s : SparseSet V} {e : EId} {i : Nat} {c : V} (hi : s.indexOf e = .ok (some i)) (hc : s.get e = .ok (some c)) :
    s.data[i]? = some c := by
  have := get_of_index hi
  rw [hc] at this
  unfold vecGetU at this
  cases hy : s.data[i]? with
  | none => rw [hy] at this; cases this
  | some y => rw [hy] at this; cases this; rfl

end Verif.GetComp
