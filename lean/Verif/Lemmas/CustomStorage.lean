import Verif.Model.CustomStorage
import Verif.Lemmas.WorldOps2

namespace Verif.World
open StoSpec EntSpec
variable {V : Type} {fl : Flags} {ty : Nat → Nat}

/-- The last of the components that are sent to the storage `k`. -/
def sent (ty : Nat → Nat) (get : Nat → SparseSet V → Option V) (k : Nat) : List (Nat × SparseSet V) → Option V
  | [] => none
  | (j, s) :: l => (sent ty get k l).or (if ty j = k then get j s else none)

theorem moveLoopC_ok {A : Nat → Option (Sto V)} {src dst : EId} (hsrc : Valid src) (now nowO : Nat)
    (l : List (Nat × SparseSet V)) : ∀ {o : World V} {B : Nat → Option (Sto V)} {Q : List Nat} {I : List EId},
    Ok o B Q I → o.ents.isAlive dst = true → (l.map Prod.fst).Nodup →
    (∀ k s, (k, s) ∈ l → ∃ a L, A k = some a ∧ AbsW s a L) →
    ∃ l' o' B', moveLoopC fl ty src dst now nowO l o = .ok (l', o') ∧ l'.map Prod.fst = l.map Prod.fst ∧
      (∀ k, k ∈ l.map Prod.fst → StoOK (lookupK l' k) ((A k).map (remTab src now))) ∧
      o'.ents = o.ents ∧ o'.counter = o.counter ∧ Ok o' B' Q I ∧
      ∀ j x, look B' j x =
        if x = dst then (sent ty (fun j _ => look A j src) j l).or (look B j x) else look B j x := by
  induction l with
  | nil =>
    intro o B Q I h _ _ _
    exact ⟨[], o, B, rfl, rfl, (fun k hk => by cases hk), rfl, rfl, h, fun j x => by simp [sent]⟩
  | cons y l ih =>
    obtain ⟨k, s⟩ := y
    intro o B Q I h hd hn hall
    obtain ⟨a, L, hA, ha⟩ := hall k s List.mem_cons_self
    obtain ⟨s', L', hr, hs'⟩ := dynRemove_tab ha hsrc now
    have hlk : lookup a.rows src = look A k src := by unfold look; rw [hA]; rfl
    rw [hlk] at hr
    obtain ⟨o1, B1, p1, p2, p3, p4, p5⟩ := h.putOpt (fl := fl) hd (ty k) nowO (look A k src)
    simp only [List.map_cons, List.nodup_cons] at hn
    obtain ⟨l', o', B', h1, h2, h3, h4, h5, h6, h7⟩ := ih p4 (by rw [p2]; exact hd) hn.2
      (fun k s hm => hall k s (List.mem_cons_of_mem _ hm))
    refine ⟨(k, s') :: l', o', B', ?_, ?_, ?_, h4.trans p2, h5.trans p3, h6, ?_⟩
    · simp only [World.moveLoopC, hr, p1, h1, bind, Except.bind]
    · simp [h2]
    · intro j hj
      by_cases hjk : j = k
      · subst hjk
        simp only [lookupK, if_true, hA]
        exact .some hs'
      · simp only [lookupK, if_neg hjk]
        rcases List.mem_cons.1 hj with hj | hj
        · exact absurd hj hjk
        · exact h3 j hj
    · intro j x
      rw [h7, p5]
      by_cases hx : x = dst
      · simp only [hx, and_true, if_true, sent]
        by_cases hjk : j = ty k
        · subst hjk; simp [Option.or_assoc]
        · have : ¬ ty k = j := fun h => hjk h.symm
          simp [hjk, this]
      · simp [hx]

theorem Ok.all_abs {w : World V} {A : Nat → Option (Sto V)} {Q : List Nat} {I : List EId} (h : Ok w A Q I) :
    ∀ k s, (k, s) ∈ w.stos → ∃ a L, A k = some a ∧ AbsW s a L := by
  intro k s hm
  have hk := h.sto k
  rw [lookupK_of_mem h.nodup hm] at hk
  generalize hA : A k = ao at hk
  cases hk with
  | some ha => exact ⟨_, _, rfl, ha⟩

theorem Ok.moveLoopC {w o : World V} {A B : Nat → Option (Sto V)} {Q Q2 : List Nat} {I I2 : List EId}
    (h : Ok w A Q I) (ho : Ok o B Q2 I2) {src dst : EId} (hsrc : w.ents.isAlive src = true)
    (hd : o.ents.isAlive dst = true) (now nowO : Nat) :
    ∃ l' o' B', moveLoopC fl ty src dst now nowO w.stos o = .ok (l', o') ∧
      o'.ents = o.ents ∧ o'.counter = o.counter ∧ Ok o' B' Q2 I2 ∧
      (∀ c, Ok { w with stos := l', counter := c } (fun k => (A k).map (remTab src now)) Q I) ∧
      (∀ k x, look (fun k => (A k).map (remTab src now)) k x = if x = src then none else look A k x) ∧
      ∀ j x, look B' j x = if x = dst then (sent ty (fun j _ => look A j src) j w.stos).or (look B j x) else look B j x := by
  obtain ⟨l', o', B', h1, h2, h3, h4, h5, h6, h7⟩ :=
    moveLoopC_ok (fl := fl) (ty := ty) (A := A) (h.ent.valid hsrc) now nowO w.stos ho hd h.nodup h.all_abs
  have hnone : ∀ k, k ∉ w.stos.map Prod.fst → A k = none := by
    intro k hk
    have := h.sto k
    rw [lookupK_none.2 hk] at this
    generalize A k = ao at this
    cases this; rfl
  refine ⟨l', o', B', h1, h4, h5, h6, ?_, ?_, h7⟩
  · intro c
    refine ⟨h.ent, by rw [h2]; exact h.nodup, ?_, ?_⟩
    · intro k
      by_cases hk : k ∈ w.stos.map Prod.fst
      · exact h3 k hk
      · show StoOK (lookupK l' k) _
        rw [lookupK_none.2 (by rw [h2]; exact hk), hnone k hk]
        exact .none
    · intro k b hb
      cases hA : A k with
      | none => rw [hA] at hb; cases hb
      | some a => rw [hA] at hb; cases hb; exact (remTab_shrinks src now a).owned (h.owned k a hA)
  · intro k x
    rw [look_map A (fun _ => remTab src now)]
    unfold look
    cases hA : A k with
    | none => simp
    | some a => exact lookup_remTab (fun r hr => h.rowAt hA hsrc hr) now x

theorem Ok.moveComponentsC {w o : World V} {A B : Nat → Option (Sto V)} {Q Q2 : List Nat} {I I2 : List EId}
    (h : Ok w A Q I) (ho : Ok o B Q2 I2) {src dst : EId} (hsrc : w.ents.isAlive src = true)
    (hd : o.ents.isAlive dst = true) :
    ∃ w' o' A' B', w.moveComponentsC fl ty o src dst = .ok (.returned, w', o') ∧
      w'.ents = w.ents ∧ o'.ents = o.ents ∧ Ok w' A' Q I ∧ Ok o' B' Q2 I2 ∧
      (∀ k x, look A' k x = if x = src then none else look A k x) ∧
      ∀ k x, look B' k x = if x = dst then (sent ty (fun j _ => look A j src) k w.stos).or (look B k dst) else look B k x := by
  obtain ⟨l', o', B', m1, m2, m3, m4, m5, m6, m7⟩ := h.moveLoopC (fl := fl) (ty := ty) ho.tick (src := src) (dst := dst) hsrc
    hd w.counter o.counter
  refine ⟨{ w.tick with stos := l' }, o', _, B', ?_, rfl, m2, m5 w.tick.counter, m4, m6, ?_⟩
  · simp only [World.moveComponentsC, hsrc, hd, if_true, m1, bind, Except.bind]
  · intro k x
    rw [m7]
    split
    · rename_i hx; rw [hx]
    · rfl

theorem Ok.moveEntityC {w o : World V} {A B : Nat → Option (Sto V)} {Q Q2 : List Nat} {I I2 : List EId}
    (h : Ok w A Q I) (ho : Ok o B Q2 I2) {e : EId} (he : w.ents.isAlive e = true)
    (hfree : WSpec.FreeFor o e) {entsO} (hs : o.ents.spawn e = .ok (true, entsO))
    (hcap : entsO.data.length < EId.maxIndex) :
    ∃ w' o' A' B' Q' Q2', w.moveEntityC fl ty o e = .ok (.returned, w', o') ∧
      o'.ents = entsO ∧
      Ok w' A' Q' I ∧ Ok o' B' Q2' (I2 ++ [e]) ∧
      (∀ x, x ≠ e → w'.ents.isAlive x = w.ents.isAlive x) ∧ (e.gen < 65533 → w'.ents.isAlive e = false) ∧
      (∀ x, o'.ents.isAlive x = true ↔ o.ents.isAlive x = true ∨ x = e) ∧
      (∀ k x, look A' k x = if x = e then none else look A k x) ∧
      ∀ k x, look B' k x = if x = e then (sent ty (fun j _ => look A j e) k w.stos).or (look B k e) else look B k x := by
  have hv := h.ent.valid he
  obtain ⟨s', Q', d1, d2, d3, d4, _, _⟩ := ent_delete h.ent e
  obtain ⟨Q2', s1, s2, _⟩ := ho.spawn hv hfree hs hcap
  have hal := s2 rfl
  obtain ⟨l', o', B', m1, m2, m3, m4, m5, m6, m7⟩ := h.moveLoopC (fl := fl) (ty := ty) s1.tick (src := e) (dst := e) he
    ((hal e).2 (.inr rfl)) w.counter o.counter
  refine ⟨{ w.tick with ents := s', stos := l' }, o', _, B', Q', Q2', ?_, m2, ?_, m4, d3, d4, ?_, m6, ?_⟩
  · rw [he] at d1
    simp only [World.moveEntityC, d1, hs, bind, Except.bind, if_true]
    have : (World.moveLoopC fl ty e e w.counter o.counter w.stos { o.tick with ents := entsO }) = .ok (l', o') := m1
    rw [this]
  · have := m5 w.tick.counter
    refine this.ents d2 ?_
    intro k b i r hb hr
    have hold := this.owned k b hb i r hr
    by_cases hx : (⟨i, r.gen⟩ : EId) = e
    · exfalso
      have h8 := m6 k ⟨i, r.gen⟩
      rw [if_pos hx] at h8
      have h9 : look (fun k => (A k).map (remTab e w.counter)) k ⟨i, r.gen⟩ = some r.val := by
        show ((A k).map (remTab e w.counter)).bind _ = _
        rw [hb]
        simp [lookup, hr]
      rw [h9] at h8
      cases h8
    · rw [d3 _ hx]; exact hold
  · intro x; rw [m2]; exact hal x
  · intro k x
    rw [m7]
    split
    · rename_i hx; rw [hx]
    · rfl

/-- The clone sent by a storage. -/
def clonedC (ty : Nat → Nat) (cl : Nat → V → V) (A : Nat → Option (Sto V)) (src : EId) (j : Nat) (s : SparseSet V) : Option V :=
  if s.canClone then (look A j src).map (cl (ty j)) else none

theorem cloneCompLoopC_ok {A : Nat → Option (Sto V)} {src dst : EId} (hsrc : Valid src) (cl : Nat → V → V)
    (nowO : Nat) (l : List (Nat × SparseSet V)) :
    ∀ {o : World V} {B : Nat → Option (Sto V)} {Q : List Nat} {I : List EId},
    Ok o B Q I → o.ents.isAlive dst = true →
    (∀ k s, (k, s) ∈ l → ∃ a L, A k = some a ∧ AbsW s a L) →
    ∃ o' B', cloneCompLoopC fl ty cl src dst nowO l o = .ok o' ∧
      o'.ents = o.ents ∧ o'.counter = o.counter ∧ Ok o' B' Q I ∧
      ∀ j x, look B' j x = if x = dst then
          (sent ty (clonedC ty cl A src) j l).or (look B j x)
        else look B j x := by
  induction l with
  | nil =>
    intro o B Q I h _ _
    exact ⟨o, B, rfl, rfl, rfl, h, fun j x => by simp [sent]⟩
  | cons y l ih =>
    obtain ⟨k, s⟩ := y
    intro o B Q I h hd hall
    obtain ⟨a, L, hA, ha⟩ := hall k s List.mem_cons_self
    have hlk : lookup a.rows src = look A k src := by unfold look; rw [hA]; rfl
    have hc : cloneOf cl src (ty k) s = .ok (clonedC ty cl A src k s) := by
      unfold cloneOf clonedC
      rw [ha.get hsrc.1, hlk]
      split <;> rfl
    obtain ⟨o1, B1, p1, p2, p3, p4, p5⟩ := h.putOpt (fl := fl) hd (ty k) nowO (clonedC ty cl A src k s)
    obtain ⟨o', B', h1, h4, h5, h6, h7⟩ := ih p4 (by rw [p2]; exact hd)
      (fun k s hm => hall k s (List.mem_cons_of_mem _ hm))
    refine ⟨o', B', ?_, h4.trans p2, h5.trans p3, h6, ?_⟩
    · simp only [World.cloneCompLoopC, hc, p1, bind, Except.bind]; exact h1
    · intro j x
      rw [h7, p5]
      by_cases hx : x = dst
      · simp only [hx, and_true, if_true, sent]
        by_cases hjk : j = ty k
        · subst hjk; simp [Option.or_assoc]
        · have : ¬ ty k = j := fun h => hjk h.symm
          simp [hjk, this]
      · simp [hx]

theorem Ok.cloneComponentsToC {w o : World V} {A B : Nat → Option (Sto V)} {Q Q2 : List Nat} {I I2 : List EId}
    (h : Ok w A Q I) (ho : Ok o B Q2 I2) {src dst : EId} (hsrc : w.ents.isAlive src = true)
    (hd : o.ents.isAlive dst = true) (cl : Nat → V → V) :
    ∃ o' B', w.cloneComponentsToC fl ty cl o src dst = .ok (.returned, o') ∧ o'.ents = o.ents ∧ Ok o' B' Q2 I2 ∧
      ∀ k x, look B' k x = if x = dst then (sent ty (clonedC ty cl A src) k w.stos).or (look B k dst) else look B k x := by
  obtain ⟨o', B', m1, m2, m3, m4, m7⟩ := cloneCompLoopC_ok (fl := fl) (ty := ty) (A := A) (h.ent.valid hsrc) cl o.counter w.stos
    ho.tick hd h.all_abs
  refine ⟨o', B', ?_, m2, m4, ?_⟩
  · simp only [World.cloneComponentsToC, hsrc, hd, if_true, m1, bind, Except.bind]
  · intro k x
    rw [m7]
    split
    · rename_i hx; rw [hx]
    · rfl

theorem Ok.cloneEntityToC {w o : World V} {A B : Nat → Option (Sto V)} {Q Q2 : List Nat} {I I2 : List EId}
    (h : Ok w A Q I) (ho : Ok o B Q2 I2) {e : EId} (he : w.ents.isAlive e = true) (cl : Nat → V → V)
    (hfree : WSpec.FreeFor o e) {entsO} (hs : o.ents.spawn e = .ok (true, entsO))
    (hcap : entsO.data.length < EId.maxIndex) :
    ∃ o' B' Q2', w.cloneEntityToC fl ty cl o e = .ok (.returned, o') ∧ o'.ents = entsO ∧ Ok o' B' Q2' (I2 ++ [e]) ∧
      (∀ x, o'.ents.isAlive x = true ↔ o.ents.isAlive x = true ∨ x = e) ∧
      ∀ k x, look B' k x = if x = e then (sent ty (clonedC ty cl A e) k w.stos).or (look B k e) else look B k x := by
  have hv := h.ent.valid he
  obtain ⟨Q2', s1, s2, _⟩ := ho.spawn hv hfree hs hcap
  have hal := s2 rfl
  obtain ⟨o', B', m1, m2, m3, m4, m7⟩ := cloneCompLoopC_ok (fl := fl) (ty := ty) (A := A) hv cl o.counter w.stos
    s1.tick ((hal e).2 (.inr rfl)) h.all_abs
  refine ⟨o', B', Q2', ?_, m2, m4, ?_, ?_⟩
  · simp only [World.cloneEntityToC, he, hs, bind, Except.bind, if_true]
    have : (World.cloneCompLoopC fl ty cl e e o.counter w.stos { o.tick with ents := entsO }) = .ok o' := m1
    rw [this]
  · intro x; rw [m2]; exact hal x
  · intro k x
    rw [m7]
    split
    · rename_i hx; rw [hx]
    · rfl

/-! ## No custom storages -/

theorem moveLoopC_id (src dst : EId) (now nowO : Nat) (l : List (Nat × SparseSet V)) :
    ∀ o : World V, moveLoopC fl id src dst now nowO l o = moveLoop fl src dst now nowO l o := by
  induction l with
  | nil => intro o; rfl
  | cons x l ih =>
    intro o
    obtain ⟨j, s⟩ := x
    simp only [moveLoopC, moveLoop, id, ih]

theorem cloneCompLoopC_id (cl : Nat → V → V) (src dst : EId) (nowO : Nat) (l : List (Nat × SparseSet V)) :
    ∀ o : World V, cloneCompLoopC fl id cl src dst nowO l o = cloneCompLoop fl cl src dst nowO l o := by
  induction l with
  | nil => intro o; rfl
  | cons x l ih =>
    intro o
    obtain ⟨j, s⟩ := x
    simp only [cloneCompLoopC, cloneCompLoop, id, ih]

/-! ## What is sent -/

theorem sent_some {get : Nat → SparseSet V → Option V} {k : Nat} {v : V} :
    ∀ {pre post : List (Nat × SparseSet V)} {j : Nat} {s : SparseSet V}, ty j = k → get j s = some v →
    (∀ i t, (i, t) ∈ post → ty i = k → get i t = none) → sent ty get k (pre ++ (j, s) :: post) = some v
  | [], post, j, s, hj, hg, hp => by
    have : sent ty get k post = none := by
      induction post with
      | nil => rfl
      | cons y post ih =>
        obtain ⟨i, t⟩ := y
        rw [sent, ih fun i t hm => hp i t (List.mem_cons_of_mem _ hm)]
        split
        · rw [hp i t List.mem_cons_self (by assumption)]; rfl
        · rfl
    show (sent ty get k post).or _ = _
    rw [this, if_pos hj, hg]
    rfl
  | (i, t) :: pre, post, j, s, hj, hg, hp => by
    show (sent ty get k (pre ++ (j, s) :: post)).or _ = _
    rw [sent_some hj hg hp]
    rfl

theorem sent_none {get : Nat → SparseSet V → Option V} {k : Nat} : ∀ {l : List (Nat × SparseSet V)},
    (∀ i t, (i, t) ∈ l → ty i = k → get i t = none) → sent ty get k l = none
  | [], _ => rfl
  | (i, t) :: l, h => by
    rw [sent, sent_none fun i t hm => h i t (List.mem_cons_of_mem _ hm)]
    split
    · rw [h i t List.mem_cons_self (by assumption)]; rfl
    · rfl

end Verif.World
