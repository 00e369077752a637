import Verif.Props.WorldUnwind

/-!
# Moving and cloning between two worlds when callbacks, destructors or clone functions panic
-/
namespace Verif
open StoSpec (Valid)
open WSpec (PReach Fits Same Cloneable demoFlags pdemo pdemo_reach)
open World
variable {V : Type} {fl : Flags}

/-- The two worlds after a loop that passes the components of `src` in `w`, changed by `f`, on to `dst` in
`o`. The storages of the source are visited in the order `moved ++ cut ++ post`: those of `moved` are done;
at most one, `cut`, was at work when user code panicked, and there the other world has the component or what
it had before; nothing was done for the others. All are done if the call returned. `left k` says what the
source still has of a storage that was visited. -/
def WSpec.PassedOn (f : Nat → Option V → Option V) (left : Nat → Res (Option V)) (out : Out Unit)
    (w w' o o' : World V) (src dst : EId) : Prop :=
  ∃ moved cut post : List Nat, w.stos.map Prod.fst = moved ++ cut ++ post ∧ cut.length ≤ 1 ∧
    (out = .returned () → cut = [] ∧ post = []) ∧
    (∀ k ∈ moved, w'.get k src = left k ∧ ∀ c old, w.get k src = .ok c → o.get k dst = .ok old →
      o'.get k dst = .ok ((f k c).or old)) ∧
    (∀ k ∈ cut, w'.get k src = left k ∧ ((∀ c old, w.get k src = .ok c → o.get k dst = .ok old →
      o'.get k dst = .ok ((f k c).or old)) ∨ o'.get k dst = o.get k dst)) ∧
    (∀ k, k ∉ moved → k ∉ cut → w'.get k src = w.get k src ∧ o'.get k dst = o.get k dst)
open WSpec (PassedOn)

theorem World.Handed.get {o o' : World V} {B B' : Nat → Option (StoSpec.Sto V)} {Q Q' J J'} (ho : Sound o B Q J)
    (ho' : Sound o' B' Q' J') {dst : EId} (hd : dst.gen < 65535) {C : Nat → Option V} {moved cut : List Nat}
    {k : Nat} (h : Handed C moved cut k (look B k dst) (look B' k dst)) :
    (k ∈ moved → ∀ old, o.get k dst = .ok old → o'.get k dst = .ok ((C k).or old)) ∧
    (k ∈ cut → (∀ old, o.get k dst = .ok old → o'.get k dst = .ok ((C k).or old)) ∨ o'.get k dst = o.get k dst) ∧
    (k ∉ moved → k ∉ cut → o'.get k dst = o.get k dst) := by
  have h1 := ho.get k hd
  have h2 := ho'.get k hd
  rw [h1, h2]
  refine ⟨?_, ?_, ?_⟩
  · intro hk old ho
    cases ho
    rw [h.1 hk]
  · intro hk
    rcases h.2.1 hk with h3 | h3
    · exact .inl (fun old ho => by cases ho; rw [h3])
    · exact .inr (by rw [h3])
  · intro k1 k2
    rw [h.2.2 k1 k2]

/-- C73, `move_entity`, cut short or not. The entity is dead in the source; its other entities and their
components are unchanged, and so are the entities of the other world at other indices. Either the call went
no further: the id was dead, the other world refused it, or `on_deletion` panicked; then the components are
where they were. Or the entity is alive in the other world and its components are passed on one storage
after the other. Missing: generations 65533 and 65534, see `C40_exhausted_fails`. -/
theorem C73_move_entity_partial {w o : World V} {I J : List EId} (hr : PReach fl w I) (hro : PReach fl o J)
    (hp : Bool) (p q : Panics) {e : EId} (hg : e.gen < 65533) :
    ∃ out w' o', w.moveEntityU fl hp p q o e = .ok (out, w', o') ∧
      PReach fl w' I ∧ PReach fl o' (J ++ if o'.isAlive e then [e] else []) ∧
      (w.isAlive e = false → out = .unwound .refused ∧ ∀ x, Same w w' x ∧ Same o o' x) ∧
      w'.isAlive e = false ∧
      (∀ x, x ≠ e → w'.isAlive x = w.isAlive x) ∧
      (∀ x, x ≠ e → w.isAlive x = true → Same w w' x) ∧
      (∀ x, x.idx ≠ e.idx → o.isAlive x = true → Same o o' x) ∧
      ((∃ u, out = .unwound u) ∧ (∀ k, w'.get k e = w.get k e) ∧ (∀ x, Same o o' x) ∨
        (∀ x, o'.isAlive x = true ↔ (o.isAlive x = true ∧ x.idx ≠ e.idx) ∨ x = e) ∧
        PassedOn (fun _ c => c) (fun _ => .ok none) out w w' o o' e e) := by
  obtain ⟨A, Q, hok⟩ := preach_ok hr
  obtain ⟨B, Q2, hoko⟩ := preach_ok hro
  obtain ⟨out, w', o', A', B', Q', Q2', moved, cut, post, h1, h2, h3, h4, h5, h6, h7, h8, h9, h10, h11, h12, h13⟩ :=
    hok.moveEntityU (fl := fl) hoko e hp p q
  have hg' : e.gen < 65535 := by omega
  have hge : ∀ k, w'.get k e = if k ∈ moved ++ cut then .ok none else w.get k e := by
    intro k
    rw [h2.get k hg', hok.get k hg', h10]
    by_cases hk : k ∈ moved ++ cut
    · rw [if_pos ⟨hk, rfl, Nat.le_refl _⟩, if_pos hk]
    · rw [if_neg (fun h => hk h.1), if_neg hk]
  have hdead : w.isAlive e = false → out = .unwound .refused ∧ ∀ x, Same w w' x ∧ Same o o' x := by
    intro ha
    obtain ⟨k1, k2, k3⟩ := h6 ha
    rw [k2, k3]
    exact ⟨k1, fun x => ⟨⟨rfl, fun k => rfl⟩, rfl, fun k => rfl⟩⟩
  refine ⟨out, w', o', h1, .moveOut hr hro h1, .moveIn hr hro h1, hdead, h5 hg, h4, ?_, ?_, ?_⟩
  · intro x hx hxa
    cases ha : w.isAlive e with
    | false => exact ((hdead ha).2 x).1
    | true =>
      refine ⟨h4 x hx, fun k => ?_⟩
      have hgx := (hok.ent.valid hxa).1
      rw [h2.get k hgx, hok.get k hgx, h10, if_neg (fun h => hok.not_hit (hok.alive e ha) hxa hx h.2)]
  · intro x hx hxa
    have hgx := (hoko.ent.valid hxa).1
    refine ⟨?_, fun k => by rw [h3.get k hgx, hoko.get k hgx, h12 k x hx]⟩
    rcases h13 with ⟨h13, _⟩ | h13
    · rw [h13]; rfl
    · rw [(h13 x).2 (.inl ⟨hxa, hx⟩), hxa]
  · rcases h13 with ⟨ho, hmc, hu⟩ | h13
    · refine .inl ⟨hu, ?_, ?_⟩
      · intro k
        rw [hge, hmc, if_neg (by simp)]
      · intro x
        rw [ho]
        exact ⟨rfl, fun k => rfl⟩
    · refine .inr ⟨h13, moved, cut, post, h7, h8, ?_, ?_, ?_, ?_⟩
      · intro ho
        rcases h9 with h9 | ⟨u, h9⟩
        · exact h9.2
        · rw [ho] at h9; cases h9
      · intro k hk
        refine ⟨by rw [hge, if_pos (List.mem_append_left _ hk)], ?_⟩
        intro c old hc hold
        rw [hok.get k hg'] at hc
        cases hc
        exact ((h11 k).get hoko h3 hg').1 hk old hold
      · intro k hk
        refine ⟨by rw [hge, if_pos (List.mem_append_right _ hk)], ?_⟩
        refine (((h11 k).get hoko h3 hg').2.1 hk).imp ?_ id
        intro h c old hc hold
        rw [hok.get k hg'] at hc
        cases hc
        exact h old hold
      · intro k k1 k2
        refine ⟨?_, ((h11 k).get hoko h3 hg').2.2 k1 k2⟩
        rw [hge, if_neg (fun h => (List.mem_append.1 h).elim k1 k2)]

/-- C73, `move_components`, cut short or not: no entity is born or dies, those that are alive and not part of
it keep their components, and the components are passed on one storage after the other. When one of the two
entities is dead the call is refused and nothing changes. -/
theorem C73_move_components {w o : World V} {I J : List EId} (hr : PReach fl w I) (hro : PReach fl o J)
    (p q : Panics) (src dst : EId) :
    ∃ out w' o', w.moveComponentsU fl p q o src dst = .ok (out, w', o') ∧
      PReach fl w' I ∧ PReach fl o' J ∧
      (∀ x, w'.isAlive x = w.isAlive x) ∧ (∀ x, o'.isAlive x = o.isAlive x) ∧
      (∀ x, x ≠ src → w.isAlive x = true → Same w w' x) ∧
      (∀ x, x ≠ dst → o.isAlive x = true → Same o o' x) ∧
      (w.isAlive src = false ∨ o.isAlive dst = false →
        out = .unwound .refused ∧ (∀ x, Same w w' x) ∧ ∀ x, Same o o' x) ∧
      (w.isAlive src = true → o.isAlive dst = true →
        PassedOn (fun _ c => c) (fun _ => .ok none) out w w' o o' src dst) := by
  obtain ⟨A, Q, hok⟩ := preach_ok hr
  obtain ⟨B, Q2, hoko⟩ := preach_ok hro
  obtain ⟨out, w', o', A', B', moved, cut, post, h1, h2, h3, h4, h5, h6, h7, h8, h9, h10, h11, h12⟩ :=
    hok.moveComponentsU (fl := fl) hoko src dst p q
  have hw : ∀ x, w'.isAlive x = w.isAlive x := fun x => by unfold World.isAlive; rw [h2]
  have ho : ∀ x, o'.isAlive x = o.isAlive x := fun x => by unfold World.isAlive; rw [h3]
  have hrefused : w.isAlive src = false ∨ o.isAlive dst = false →
      out = .unwound .refused ∧ (∀ x, Same w w' x) ∧ ∀ x, Same o o' x := by
    intro h
    obtain ⟨k1, k2, k3⟩ := h6 h
    exact ⟨k1, fun x => by rw [k2]; exact ⟨rfl, fun k => rfl⟩, fun x => by rw [k3]; exact ⟨rfl, fun k => rfl⟩⟩
  refine ⟨out, w', o', h1, .moveComponentsOut hr hro h1, .moveComponentsIn hr hro h1, hw, ho, ?_, ?_, hrefused, ?_⟩
  · intro x hx hxa
    cases ha : w.isAlive src with
    | false => exact (hrefused (.inl ha)).2.1 x
    | true =>
      refine ⟨hw x, fun k => ?_⟩
      have hgx := (hok.ent.valid hxa).1
      rw [h4.get k hgx, hok.get k hgx, h10, if_neg (fun h => hok.not_hit (hok.alive src ha) hxa hx h.2)]
  · intro x hx hxa
    cases ha : o.isAlive dst with
    | false => exact (hrefused (.inr ha)).2.2 x
    | true =>
      refine ⟨ho x, fun k => ?_⟩
      have hgx := (hoko.ent.valid hxa).1
      rw [h5.get k hgx, hoko.get k hgx, h12 k x]
      intro hi
      have k1 := hoko.ent.issued_le (hoko.alive x hxa) ha hi.symm
      have k2 := hoko.ent.issued_le (hoko.alive dst ha) hxa hi
      apply hx
      cases x; cases dst
      simp only [EId.mk.injEq] at *
      omega
  · intro hs hd
    have hgs := (hok.ent.valid hs).1
    have hgd := (hoko.ent.valid hd).1
    have hge : ∀ k, w'.get k src = if k ∈ moved ++ cut then .ok none else w.get k src := by
      intro k
      rw [h4.get k hgs, hok.get k hgs, h10]
      by_cases hk : k ∈ moved ++ cut
      · rw [if_pos ⟨hk, rfl, Nat.le_refl _⟩, if_pos hk]
      · rw [if_neg (fun h => hk h.1), if_neg hk]
    refine ⟨moved, cut, post, h7, h8, ?_, ?_, ?_, ?_⟩
    · intro ho
      rcases h9 with h9 | ⟨u, h9⟩
      · exact h9.2
      · rw [ho] at h9; cases h9
    · intro k hk
      refine ⟨by rw [hge, if_pos (List.mem_append_left _ hk)], ?_⟩
      intro c old hc hold
      rw [hok.get k hgs] at hc
      cases hc
      exact ((h11 k).get hoko h5 hgd).1 hk old hold
    · intro k hk
      refine ⟨by rw [hge, if_pos (List.mem_append_right _ hk)], ?_⟩
      refine (((h11 k).get hoko h5 hgd).2.1 hk).imp ?_ id
      intro h c old hc hold
      rw [hok.get k hgs] at hc
      cases hc
      exact h old hold
    · intro k k1 k2
      refine ⟨?_, ((h11 k).get hoko h5 hgd).2.2 k1 k2⟩
      rw [hge, if_neg (fun h => (List.mem_append.1 h).elim k1 k2)]

/-! ## What passing on gives -/

/-- A component that is passed on is never in both worlds: as long as the source has one of some type, the
other world has what it had. -/
theorem C73_move_no_copy {out : Out Unit} {w w' o o' : World V} {src dst : EId}
    (h : PassedOn (fun _ c => c) (fun _ => .ok none) out w w' o o' src dst) {k : Nat} {v : V}
    (hv : w'.get k src = .ok (some v)) : o'.get k dst = o.get k dst ∧ w.get k src = .ok (some v) := by
  obtain ⟨moved, cut, post, _, _, _, h1, h2, h3⟩ := h
  by_cases k1 : k ∈ moved
  · rw [(h1 k k1).1] at hv; cases hv
  · by_cases k2 : k ∈ cut
    · rw [(h2 k k2).1] at hv; cases hv
    · exact ⟨(h3 k k1 k2).2, by rw [← (h3 k k1 k2).1]; exact hv⟩

/-- At most one component is lost: any two types of which neither world has the component are the same. -/
theorem C73_move_one_lost {out : Out Unit} {w w' o o' : World V} {src dst : EId}
    (h : PassedOn (fun _ c => c) (fun _ => .ok none) out w w' o o' src dst)
    {j k : Nat} {x y : V} {oldx oldy : Option V}
    (hx : w.get j src = .ok (some x)) (hy : w.get k src = .ok (some y))
    (hox : o.get j dst = .ok oldx) (hoy : o.get k dst = .ok oldy)
    (hjx : w'.get j src ≠ .ok (some x) ∧ o'.get j dst ≠ .ok (some x))
    (hky : w'.get k src ≠ .ok (some y) ∧ o'.get k dst ≠ .ok (some y)) : j = k := by
  obtain ⟨moved, cut, post, _, hc, _, h1, h2, h3⟩ := h
  have hin : ∀ {i : Nat} {z : V} {old : Option V}, w.get i src = .ok (some z) → o.get i dst = .ok old →
      w'.get i src ≠ .ok (some z) ∧ o'.get i dst ≠ .ok (some z) → i ∈ cut := by
    intro i z old hz hold hn
    by_cases k1 : i ∈ moved
    · exact absurd ((h1 i k1).2 _ _ hz hold) hn.2
    · by_cases k2 : i ∈ cut
      · exact k2
      · exact absurd (by rw [(h3 i k1 k2).1, hz]) hn.1
  have a := hin hx hox hjx
  have b := hin hy hoy hky
  match cut, hc with
  | [], _ => cases a
  | [c], _ => rw [List.mem_singleton.1 a, List.mem_singleton.1 b]

/-- When the call returned all components are in the other world and none is left, and what the other entity
had of other types it still has. -/
theorem C73_move_returned {w w' o o' : World V} {src dst : EId}
    (h : PassedOn (fun _ c => c) (fun _ => .ok none) (.returned ()) w w' o o' src dst) {k : Nat}
    {c old : Option V} (hc : w.get k src = .ok c) (hold : o.get k dst = .ok old) :
    w'.get k src = .ok none ∧ o'.get k dst = .ok (c.or old) := by
  obtain ⟨moved, cut, post, hk, _, hret, h1, _, h3⟩ := h
  obtain ⟨rfl, rfl⟩ := hret rfl
  by_cases k1 : k ∈ moved
  · exact ⟨(h1 k k1).1, (h1 k k1).2 c old hc hold⟩
  · have h4 := h3 k k1 (by simp)
    have hnone : w.get k src = .ok none := by
      unfold World.get
      rw [lookupK_none.2 (by rw [hk]; simpa using k1)]
    rw [hnone] at hc
    cases hc
    exact ⟨by rw [h4.1, hnone], by rw [h4.2, hold]; rfl⟩

/-! ## Cloning -/

/-- The component of type `k` a clone gets. -/
noncomputable def WSpec.cloneGets (w : World V) (cl : Nat → V → V) (k : Nat) (c : Option V) : Option V :=
  open Classical in if Cloneable w k then c.map (cl k) else none
open WSpec (cloneGets)

theorem World.clone_passed {w o o' : World V} {A : Nat → Option (StoSpec.Sto V)} {Q I} (hok : Sound w A Q I)
    {B B' : Nat → Option (StoSpec.Sto V)} {Q2 J Q2' J'} (hoko : Sound o B Q2 J) (ho' : Sound o' B' Q2' J')
    {src dst : EId} (hgs : src.gen < 65535) (hgd : dst.gen < 65535) {cl : Nat → V → V} {C : Nat → Option V}
    (hC1 : ∀ k, (∃ s, lookupK w.stos k = some s ∧ s.canClone = true) → C k = (look A k src).map (cl k))
    (hC2 : ∀ k, (¬ ∃ s, lookupK w.stos k = some s ∧ s.canClone = true) → C k = none)
    {out : Out Unit} {moved cut post : List Nat} (h7 : w.stos.map Prod.fst = moved ++ cut ++ post)
    (h8 : cut.length ≤ 1) (h9 : out = .returned () ∧ cut = [] ∧ post = [] ∨ ∃ u, out = .unwound u)
    (h11 : ∀ k, Handed C moved cut k (look B k dst) (look B' k dst)) :
    PassedOn (cloneGets w cl) (fun k => w.get k src) out w w o o' src dst := by
  have hc : ∀ k c, w.get k src = .ok c → cloneGets w cl k c = C k := by
    intro k c hc
    rw [hok.get k hgs] at hc
    cases hc
    unfold cloneGets
    split
    · rename_i h; exact (hC1 k h).symm
    · rename_i h; exact (hC2 k h).symm
  refine ⟨moved, cut, post, h7, h8, ?_, ?_, ?_, ?_⟩
  · intro ho
    rcases h9 with h9 | ⟨u, h9⟩
    · exact h9.2
    · rw [ho] at h9; cases h9
  · intro k hk
    refine ⟨rfl, fun c old hcc hold => ?_⟩
    rw [hc k c hcc]
    exact ((h11 k).get hoko ho' hgd).1 hk old hold
  · intro k hk
    refine ⟨rfl, (((h11 k).get hoko ho' hgd).2.1 hk).imp ?_ id⟩
    intro h c old hcc hold
    rw [hc k c hcc]
    exact h old hold
  · intro k k1 k2
    exact ⟨rfl, ((h11 k).get hoko ho' hgd).2.2 k1 k2⟩

/-- C73, `clone_entity_to`, cut short or not: the entities of the other world at other indices are unchanged.
Either the call was refused, because the entity is dead or the other world does not take its id, and nothing
changed; or the entity is alive there and the clones are given to it one storage after the other. -/
theorem C73_clone_entity {w o : World V} {I J : List EId} (hr : PReach fl w I) (hro : PReach fl o J)
    (cl : Nat → V → V) (c : Nat → Bool) (q : Panics) (e : EId) :
    ∃ out o', w.cloneEntityToU fl cl c q o e = .ok (out, o') ∧
      PReach fl o' (J ++ if o'.isAlive e then [e] else []) ∧
      (∀ x, x.idx ≠ e.idx → o.isAlive x = true → Same o o' x) ∧
      (out = .unwound .refused ∧ (∀ x, Same o o' x) ∨
        w.isAlive e = true ∧ (∀ x, o'.isAlive x = true ↔ (o.isAlive x = true ∧ x.idx ≠ e.idx) ∨ x = e) ∧
        PassedOn (cloneGets w cl) (fun k => w.get k e) out w w o o' e e) := by
  obtain ⟨A, Q, hok⟩ := preach_ok hr
  obtain ⟨B, Q2, hoko⟩ := preach_ok hro
  by_cases ha : w.ents.isAlive e = true
  · have hg := (hok.ent.valid ha).1
    obtain ⟨C, hC, hC1, hC2⟩ := hok.cloneOf cl hg
    obtain ⟨out, o', B', Q2', moved, cut, post, h1, h3, h7, h8, h9, h11, h12, h13⟩ :=
      hok.cloneEntityToU (fl := fl) hoko e cl c q hC
    refine ⟨out, o', h1, .cloneEntityTo hr hro h1, ?_, ?_⟩
    · intro x hx hxa
      have hgx := (hoko.ent.valid hxa).1
      refine ⟨?_, fun k => by rw [h3.get k hgx, hoko.get k hgx, h12 k x hx]⟩
      rcases h13 with ⟨h13, _⟩ | ⟨_, h13⟩
      · rw [h13]; rfl
      · rw [(h13 x).2 (.inl ⟨hxa, hx⟩), hxa]
    · rcases h13 with ⟨ho, _, hu⟩ | ⟨_, h13⟩
      · exact .inl ⟨hu, fun x => by rw [ho]; exact ⟨rfl, fun k => rfl⟩⟩
      · exact .inr ⟨ha, h13, clone_passed hok hoko h3 hg hg hC1 hC2 h7 h8 h9 h11⟩
  · have h1 : w.cloneEntityToU fl cl c q o e = .ok (.unwound .refused, o.tick) := by
      unfold World.cloneEntityToU
      rw [if_neg ha]
    exact ⟨_, _, h1, .cloneEntityTo hr hro h1, fun x _ _ => ⟨rfl, fun k => rfl⟩,
      .inl ⟨rfl, fun x => ⟨rfl, fun k => rfl⟩⟩⟩

/-- C73, `clone_components_to`, cut short or not. -/
theorem C73_clone_components {w o : World V} {I J : List EId} (hr : PReach fl w I) (hro : PReach fl o J)
    (cl : Nat → V → V) (c : Nat → Bool) (q : Panics) (src dst : EId) :
    ∃ out o', w.cloneComponentsToU fl cl c q o src dst = .ok (out, o') ∧ PReach fl o' J ∧
      (∀ x, o'.isAlive x = o.isAlive x) ∧
      (∀ x, x ≠ dst → o.isAlive x = true → Same o o' x) ∧
      (w.isAlive src = false ∨ o.isAlive dst = false → out = .unwound .refused ∧ ∀ x, Same o o' x) ∧
      (w.isAlive src = true → o.isAlive dst = true →
        PassedOn (cloneGets w cl) (fun k => w.get k src) out w w o o' src dst) := by
  obtain ⟨A, Q, hok⟩ := preach_ok hr
  obtain ⟨B, Q2, hoko⟩ := preach_ok hro
  by_cases ha : w.ents.isAlive src = true
  · have hgs := (hok.ent.valid ha).1
    obtain ⟨C, hC, hC1, hC2⟩ := hok.cloneOf cl hgs
    obtain ⟨out, o', B', moved, cut, post, h1, h3, h5, h6, h7, h8, h9, h11, h12⟩ :=
      hok.cloneComponentsToU (fl := fl) hoko src dst cl c q hC
    have ho : ∀ x, o'.isAlive x = o.isAlive x := fun x => by unfold World.isAlive; rw [h3]
    have hrefused : w.isAlive src = false ∨ o.isAlive dst = false → out = .unwound .refused ∧ ∀ x, Same o o' x := by
      intro h
      obtain ⟨k1, k3⟩ := h6 h
      exact ⟨k1, fun x => by rw [k3]; exact ⟨rfl, fun k => rfl⟩⟩
    refine ⟨out, o', h1, .cloneComponentsTo hr hro h1, ho, ?_, hrefused, ?_⟩
    · intro x hx hxa
      cases hd : o.isAlive dst with
      | false => exact (hrefused (.inr hd)).2 x
      | true =>
        refine ⟨ho x, fun k => ?_⟩
        have hgx := (hoko.ent.valid hxa).1
        rw [h5.get k hgx, hoko.get k hgx, h12 k x]
        intro hi
        have k1 := hoko.ent.issued_le (hoko.alive x hxa) hd hi.symm
        have k2 := hoko.ent.issued_le (hoko.alive dst hd) hxa hi
        apply hx
        cases x; cases dst
        simp only [EId.mk.injEq] at *
        omega
    · intro _ hd
      exact clone_passed hok hoko h5 hgs (hoko.ent.valid hd).1 hC1 hC2 h7 h8 h9 h11
  · have h1 : w.cloneComponentsToU fl cl c q o src dst = .ok (.unwound .refused, o.tick) := by
      unfold World.cloneComponentsToU
      rw [if_neg ha]
    exact ⟨_, _, h1, .cloneComponentsTo hr hro h1, fun _ => rfl, fun x _ _ => ⟨rfl, fun k => rfl⟩,
      fun _ => ⟨rfl, fun x => ⟨rfl, fun k => rfl⟩⟩, fun h => absurd h ha⟩

/-! ## The ordinary calls -/

/-- When nothing panics these are the calls C46 and C47 are about. -/
theorem C73_calm_between (w o : World V) (cl : Nat → V → V) :
    (∀ e r w' o', w.moveEntity fl o e = .ok (r, w', o') →
      w.moveEntityU fl false calm calm o e = .ok (endOf r, w', o')) ∧
    (∀ src dst r w' o', w.moveComponents fl o src dst = .ok (r, w', o') →
      w.moveComponentsU fl calm calm o src dst = .ok (endOf r, w', o')) ∧
    (∀ e r o', w.cloneEntityTo fl cl o e = .ok (r, o') →
      w.cloneEntityToU fl cl (fun _ => false) calm o e = .ok (endOf r, o')) ∧
    (∀ src dst r o', w.cloneComponentsTo fl cl o src dst = .ok (r, o') →
      w.cloneComponentsToU fl cl (fun _ => false) calm o src dst = .ok (endOf r, o')) :=
  ⟨fun _ _ _ _ h => moveEntityU_plain h, fun _ _ _ _ _ h => moveComponentsU_plain h,
    fun _ _ _ h => cloneEntityToU_plain h, fun _ _ _ _ h => cloneComponentsToU_plain h⟩

/-! ## Where it fails -/

/-- A callback of the other world panics while `move_entity` works: the component it was called for is in
neither world. -/
theorem C73_move_lost_fails : ∃ (o w' o' : World Nat) (J : List EId), PReach demoFlags o J ∧
    PReach demoFlags pdemo [⟨0, 0⟩, ⟨1, 0⟩] ∧ pdemo.get 1 ⟨0, 0⟩ = .ok (some 20) ∧
    pdemo.moveEntityU demoFlags false calm (fun k => (k == 1, false)) o ⟨0, 0⟩ = .ok (.unwound .hook, w', o') ∧
    w'.get 0 ⟨0, 0⟩ = .ok none ∧ o'.get 0 ⟨0, 0⟩ = .ok (some 10) ∧
    w'.get 1 ⟨0, 0⟩ = .ok none ∧ o'.get 1 ⟨0, 0⟩ = .ok none ∧ o'.isAlive ⟨0, 0⟩ = true :=
  ⟨_, _, _, _, .view (k := 1) (ev := .done (.onInsertion true)) (.create 1 (.init false)) rfl
    (.done (.onInsertion (b := true))) trivial, pdemo_reach, rfl, rfl, rfl, rfl, rfl, rfl, rfl⟩

/-- A callback of the source panics while `move_entity` works: the components of the storages that come later
stay with the dead entity, the entity alive in the other world lacks them. -/
theorem C73_move_orphan_fails : ∃ (w w' o' : World Nat), PReach demoFlags w [⟨0, 0⟩, ⟨1, 0⟩] ∧
    w.isAlive ⟨0, 0⟩ = true ∧ w.get 1 ⟨0, 0⟩ = .ok (some 20) ∧
    w.moveEntityU demoFlags false (fun k => (k == 0, false)) calm World.new ⟨0, 0⟩ = .ok (.unwound .hook, w', o') ∧
    w'.isAlive ⟨0, 0⟩ = false ∧ w'.get 1 ⟨0, 0⟩ = .ok (some 20) ∧
    o'.isAlive ⟨0, 0⟩ = true ∧ o'.get 1 ⟨0, 0⟩ = .ok none :=
  ⟨_, _, _, .view (k := 0) (ev := .done (.onRemoval true)) pdemo_reach rfl
    (.done (.onRemoval (b := true))) trivial, rfl, rfl, rfl, rfl, rfl, rfl, rfl⟩

/-! ## Witnesses -/

/-- A move that returns, into a world in which the same id is taken: the case of `C73_move_returned` in which
`old` is there. -/
example : ∃ w' o' : World Nat, pdemo.moveComponentsU demoFlags calm calm pdemo ⟨0, 0⟩ ⟨1, 0⟩ =
    .ok (.returned (), w', o') ∧ w'.get 0 ⟨0, 0⟩ = .ok none ∧ o'.get 0 ⟨1, 0⟩ = .ok (some 10) ∧
    o'.get 1 ⟨1, 0⟩ = .ok (some 20) := ⟨_, _, rfl, rfl, rfl, rfl⟩

/-- A destructor of the other world panics with the new component in place. -/
example : ∃ w' o' : World Nat, pdemo.moveComponentsU demoFlags calm (fun _ => (false, true)) pdemo ⟨0, 0⟩ ⟨1, 0⟩ =
    .ok (.unwound .dtor, w', o') ∧ o'.get 0 ⟨1, 0⟩ = .ok (some 10) ∧
    w'.get 1 ⟨0, 0⟩ = .ok (some 20) ∧ o'.get 1 ⟨1, 0⟩ = .ok none := ⟨_, _, rfl, rfl, rfl, rfl⟩

/-- A clone function that panics: the first component is cloned, the second is not. -/
example : ∃ (w : World Nat) (o' : World Nat), PReach demoFlags w [⟨0, 0⟩, ⟨1, 0⟩] ∧ Cloneable w 0 ∧ Cloneable w 1 ∧
    w.cloneEntityToU demoFlags (fun _ v => v + 1) (fun k => k == 1) calm World.new ⟨0, 0⟩ =
      .ok (.unwound .closure, o') ∧
    o'.isAlive ⟨0, 0⟩ = true ∧ o'.get 0 ⟨0, 0⟩ = .ok (some 11) ∧ o'.get 1 ⟨0, 0⟩ = .ok none :=
  ⟨_, _, .registerClone 1 (.registerClone 0 pdemo_reach), ⟨_, rfl, rfl⟩, ⟨_, rfl, rfl⟩, rfl, rfl, rfl, rfl⟩

/-- The world a cut move leaves is one the theorems of C73 apply to, and so is the other. -/
theorem move_history : ∃ (w o : World Nat) (J : List EId), PReach demoFlags w [⟨0, 0⟩, ⟨1, 0⟩] ∧ PReach demoFlags o J ∧
    w.get 1 ⟨0, 0⟩ = .ok (some 20) ∧ w.isAlive ⟨0, 0⟩ = false ∧ o.isAlive ⟨0, 0⟩ = true ∧ ⟨0, 0⟩ ∈ J := by
  have h := WSpec.PReach.view (k := 0) (ev := .done (.onRemoval true)) pdemo_reach rfl
    (.done (.onRemoval (b := true))) trivial
  have h0 : PReach demoFlags (World.new : World Nat) [] := .init false
  have h1 := h.moveOut (hp := false) (p := fun k => (k == 0, false)) (q := calm) (e := ⟨0, 0⟩)
    (out := .unwound .hook) h0 rfl
  have h2 := h.moveIn (hp := false) (p := fun k => (k == 0, false)) (q := calm) (e := ⟨0, 0⟩)
    (out := .unwound .hook) h0 rfl
  exact ⟨_, _, _, h1, h2, rfl, rfl, rfl, by simp [World.isAlive, Entities.isAlive]; decide⟩

end Verif
