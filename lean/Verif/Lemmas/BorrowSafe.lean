import Verif.Lemmas.BorrowRace
import Verif.Spec.BorrowRace

/-!
# The steps of a system fit its footprint
-/
namespace Verif.Borrow

theorem Safe_append {st : Cells} {me : Nat} {m : Nat → Mode} {h : Held} {A B : List Act} :
    Safe st me m h (A ++ B) ↔ Safe st me m h A ∧ Safe st me m (A.foldl Held.after h) B := by
  induction A generalizing h with
  | nil => simp [Safe]
  | cons a A ih => simp only [List.cons_append, Safe, ih, List.foldl_cons]; exact and_assoc.symm

theorem Fit.foldl {st : Cells} {me : Nat} {m : Nat → Mode} {h : Held} {A : List Act} (hf : Fit m h) (hs : Safe st me m h A) :
    Fit m (A.foldl Held.after h) := by
  induction A generalizing h with
  | nil => exact hf
  | cons a A ih => exact ih (hf.after hs.1) hs.2

mutual
theorem whole_shared (r : Req) (s : Nat) (hs : s ≠ allCell) (h : r.whole.sharedOn s ≠ 0) : (s, false) ∈ r.leaves := by
  match r with
  | .unit => simp [Req.whole, View.sharedOn] at h
  | .view t x _ _ =>
    simp only [Req.whole, View.sharedOn, hs, false_and, if_false, Nat.add_zero] at h
    have : s = t ∧ x = false := Classical.byContradiction fun hn => h (by rw [if_neg hn])
    obtain ⟨rfl, rfl⟩ := this
    simp [Req.leaves]
  | .opt r =>
    simp only [Req.whole, View.sharedOn] at h
    simp only [Req.leaves]
    exact whole_shared r s hs h
  | .tuple rs =>
    simp only [Req.whole, View.sharedOn] at h
    simp only [Req.leaves]
    exact wholeAll_shared rs s hs h
theorem wholeAll_shared (rs : List Req) (s : Nat) (hs : s ≠ allCell) (h : View.sharedOnAll s (Req.wholeAll rs) ≠ 0) :
    (s, false) ∈ Req.leavesAll rs := by
  match rs with
  | [] => simp [Req.wholeAll, View.sharedOnAll] at h
  | r :: rs =>
    simp only [Req.wholeAll, View.sharedOnAll] at h
    simp only [Req.leavesAll, List.mem_append]
    by_cases h0 : r.whole.sharedOn s = 0
    · exact .inr (wholeAll_shared rs s hs (by omega))
    · exact .inl (whole_shared r s hs h0)
end

mutual
theorem whole_exclusive (r : Req) (s : Nat) (h : r.whole.exclusiveOn s ≠ 0) : (s, true) ∈ r.leaves := by
  match r with
  | .unit => simp [Req.whole, View.exclusiveOn] at h
  | .view t x _ _ =>
    simp only [Req.whole, View.exclusiveOn] at h
    have : s = t ∧ x = true := Classical.byContradiction fun hn => h (by rw [if_neg hn])
    obtain ⟨rfl, rfl⟩ := this
    simp [Req.leaves]
  | .opt r =>
    simp only [Req.whole, View.exclusiveOn] at h
    simp only [Req.leaves]
    exact whole_exclusive r s h
  | .tuple rs =>
    simp only [Req.whole, View.exclusiveOn] at h
    simp only [Req.leaves]
    exact wholeAll_exclusive rs s h
theorem wholeAll_exclusive (rs : List Req) (s : Nat) (h : View.exclusiveOnAll s (Req.wholeAll rs) ≠ 0) :
    (s, true) ∈ Req.leavesAll rs := by
  match rs with
  | [] => simp [Req.wholeAll, View.exclusiveOnAll] at h
  | r :: rs =>
    simp only [Req.wholeAll, View.exclusiveOnAll] at h
    simp only [Req.leavesAll, List.mem_append]
    by_cases h0 : r.whole.exclusiveOn s = 0
    · exact .inr (wholeAll_exclusive rs s (by omega))
    · exact .inl (whole_exclusive r s h0)
end

/-- The guards after the steps of a request. -/
structure Gains (h h' : Held) (v : View) (lost : Nat) : Prop where
  s : ∀ k, h'.s k + (if k = allCell then lost else 0) = h.s k + v.sharedOn k
  x : ∀ k, h'.x k = h.x k + v.exclusiveOn k

structure GainsAll (h h' : Held) (vs : List View) : Prop where
  s : ∀ k, h'.s k = h.s k + View.sharedOnAll k vs
  x : ∀ k, h'.x k = h.x k + View.exclusiveOnAll k vs

mutual
theorem acts_gains (r : Req) (h : Held) (h0 : h.s allCell ≠ 0) : Gains h (r.acts.foldl Held.after h) r.whole 1 := by
  match r with
  | .unit =>
    constructor
    · intro k
      by_cases hk : k = allCell
      · subst hk
        simp [Req.acts, Held.after, bump, Req.whole, View.sharedOn]
        omega
      · simp [Req.acts, Held.after, bump, Req.whole, View.sharedOn, hk]
    · intro k
      simp [Req.acts, Held.after, Req.whole, View.exclusiveOn]
  | .view t x _ _ =>
    constructor
    · intro k
      by_cases hk : k = allCell <;> by_cases hk' : k = t <;> cases x <;>
        simp only [Req.acts, List.foldl_cons, List.foldl_nil, Held.after, bump, Req.whole, View.sharedOn, hk', if_true, if_false,
          and_true, true_and, false_and, hk] <;> (try simp only [hk', hk] at *) <;> (try simp_all) <;> omega
    · intro k
      by_cases hk' : k = t <;> cases x <;> simp [Req.acts, Held.after, bump, Req.whole, View.exclusiveOn, hk']
  | .opt r =>
    simp only [Req.acts, Req.whole]
    obtain ⟨h1, h2⟩ := acts_gains r h h0
    exact ⟨fun k => by simpa only [View.sharedOn] using h1 k, fun k => by simpa only [View.exclusiveOn] using h2 k⟩
  | .tuple rs =>
    simp only [Req.acts, Req.whole, List.foldl_append, List.foldl_cons, List.foldl_nil]
    obtain ⟨h1, h2⟩ := actsAll_gains rs h h0
    constructor
    · intro k
      have := h1 k
      simp only [View.sharedOn, Held.after, bump]
      by_cases hk : k = allCell
      · subst hk
        simp only [if_true]
        omega
      · simp only [hk, if_false]
        omega
    · intro k
      have := h2 k
      simp only [View.exclusiveOn, Held.after]
      exact this
theorem actsAll_gains (rs : List Req) (h : Held) (h0 : h.s allCell ≠ 0) :
    GainsAll h ((Req.actsAll rs).foldl Held.after h) (Req.wholeAll rs) := by
  match rs with
  | [] => exact ⟨fun k => by simp [Req.actsAll, Req.wholeAll, View.sharedOnAll], fun k => by simp [Req.actsAll, Req.wholeAll, View.exclusiveOnAll]⟩
  | r :: rs =>
    simp only [Req.actsAll, Req.wholeAll, List.foldl_cons, List.foldl_append]
    have hc : (h.after .clone).s allCell = h.s allCell + 1 := by simp [Held.after, bump]
    obtain ⟨h1, h2⟩ := acts_gains r (h.after .clone) (by omega)
    have e := h1 allCell
    simp only [if_true] at e
    obtain ⟨h3, h4⟩ := actsAll_gains rs (r.acts.foldl Held.after (h.after .clone)) (by omega)
    constructor
    · intro k
      have e1 := h1 k
      have e2 := h3 k
      simp only [View.sharedOnAll]
      by_cases hk : k = allCell
      · subst hk
        simp only [if_true] at e1
        omega
      · have : (h.after .clone).s k = h.s k := by simp [Held.after, bump, hk]
        simp only [hk, if_false] at e1
        omega
    · intro k
      have e1 := h2 k
      have e2 := h4 k
      have : (h.after .clone).x k = h.x k := by simp [Held.after]
      simp only [View.exclusiveOnAll]
      omega
end

/-- What a request needs of a footprint. -/
structure Needs (st : Cells) (me : Nat) (m : Nat → Mode) (ls : List (Nat × Bool)) (h : Held) : Prop where
  storage : ∀ l ∈ ls, l.1 ≠ allCell
  exclusive : ∀ l ∈ ls, l.2 = true → m l.1 = .sole ∧ ∀ t, st.owner l.1 = some t → t = me
  shared : ∀ l ∈ ls, l.2 = false → (m l.1 = .shared ∧ ¬ soleRead st l.1 ∨ m l.1 = .sole)
      ∧ (st.isSync l.1 = false → ∀ t, st.owner l.1 = some t → t = me)
  once : ls.Pairwise fun a b => a.1 = b.1 → m a.1 ≠ .sole
  free : ∀ l ∈ ls, m l.1 = .sole → h.s l.1 = 0 ∧ h.x l.1 = 0

mutual
theorem acts_safe (r : Req) {st : Cells} {me : Nat} {m : Nat → Mode} {h : Held} (hm : m allCell = .shared) (h0 : h.s allCell ≠ 0)
    (hn : Needs st me m r.leaves h) : Safe st me m h r.acts := by
  match r with
  | .unit => exact ⟨⟨by rw [hm]; simp, h0⟩, trivial⟩
  | .view s x _ _ =>
    have hmem : (s, x) ∈ (Req.view s x ‹_› ‹_›).leaves := by simp [Req.leaves]
    refine ⟨?_, trivial⟩
    cases x with
    | true =>
      obtain ⟨h1, h2⟩ := hn.exclusive _ hmem rfl
      obtain ⟨h3, h4⟩ := hn.free _ hmem h1
      exact ⟨h1, h3, h4, h2⟩
    | false =>
      obtain ⟨h1, h2⟩ := hn.shared _ hmem rfl
      refine ⟨?_, h2⟩
      rcases h1 with h1 | h1
      · exact .inl h1
      · obtain ⟨h3, h4⟩ := hn.free _ hmem h1
        exact .inr ⟨h1, h3, h4⟩
  | .opt r =>
    simp only [Req.acts]
    exact acts_safe r hm h0 (by simpa only [Req.leaves] using hn)
  | .tuple rs =>
    simp only [Req.acts]
    rw [Safe_append]
    refine ⟨actsAll_safe rs hm h0 (by simpa only [Req.leaves] using hn), ⟨by rw [hm]; simp, ?_⟩, trivial⟩
    have := (actsAll_gains rs h h0).s allCell
    omega
theorem actsAll_safe (rs : List Req) {st : Cells} {me : Nat} {m : Nat → Mode} {h : Held} (hm : m allCell = .shared)
    (h0 : h.s allCell ≠ 0) (hn : Needs st me m (Req.leavesAll rs) h) : Safe st me m h (Req.actsAll rs) := by
  match rs with
  | [] => simp [Req.actsAll, Safe]
  | r :: rs =>
    simp only [Req.leavesAll] at hn
    have hc : (h.after .clone).s allCell = h.s allCell + 1 := by simp [Held.after, bump]
    have hck : ∀ k, k ≠ allCell → (h.after .clone).s k = h.s k := by intro k hk; simp [Held.after, bump, hk]
    have hcx : ∀ k, (h.after .clone).x k = h.x k := by intro k; simp [Held.after]
    simp only [Req.actsAll, Safe]
    refine ⟨⟨hm, h0⟩, ?_⟩
    rw [Safe_append]
    obtain ⟨g1, g2⟩ := acts_gains r (h.after .clone) (by omega)
    have e := g1 allCell
    simp only [if_true] at e
    have hpw := List.pairwise_append.mp hn.once
    refine ⟨acts_safe r hm (by omega) ⟨fun l hl => hn.storage l (by simp [hl]), fun l hl => hn.exclusive l (by simp [hl]),
      fun l hl => hn.shared l (by simp [hl]), hpw.1, fun l hl hs => ?_⟩,
      actsAll_safe rs hm (by omega) ⟨fun l hl => hn.storage l (by simp [hl]), fun l hl => hn.exclusive l (by simp [hl]),
      fun l hl => hn.shared l (by simp [hl]), hpw.2.1, fun l hl hs => ?_⟩⟩
    · rw [hck _ (hn.storage l (by simp [hl])), hcx]
      exact hn.free l (by simp [hl]) hs
    · have hla := hn.storage l (by simp [hl])
      have hf := hn.free l (by simp [hl]) hs
      have e1 := g1 l.1
      have e2 := g2 l.1
      rw [hck _ hla] at e1
      rw [hcx] at e2
      simp only [hla, if_false] at e1
      have z1 : r.whole.sharedOn l.1 = 0 := Classical.byContradiction fun hne =>
        hpw.2.2 _ (whole_shared r l.1 hla hne) l hl rfl hs
      have z2 : r.whole.exclusiveOn l.1 = 0 := Classical.byContradiction fun hne =>
        hpw.2.2 _ (whole_exclusive r l.1 hne) l hl rfl hs
      omega
end

/-! ## Dropping -/

/-- The step drops a guard. -/
def Act.isDrop : Act → Prop
  | .drop _ _ => True
  | _ => False

theorem drops_safe {st : Cells} {me : Nat} {m : Nat → Mode} {h : Held} {D : List Act} (hf : Fit m h) (hd : ∀ a ∈ D, a.isDrop)
    (hc : ∀ s, D.count (.drop s false) ≤ h.s s ∧ D.count (.drop s true) ≤ h.x s) : Safe st me m h D := by
  induction D generalizing h with
  | nil => trivial
  | cons a D ih =>
    cases a with
    | borrow s x => exact (hd (.borrow s x) (by simp) : False).elim
    | clone => exact (hd .clone (by simp) : False).elim
    | drop s x =>
      have hal : Allowed st me m h (.drop s x) := by
        have h1 := hc s
        have h2 := hf s
        cases x with
        | false =>
          simp only [List.count_cons_self] at h1
          refine ⟨fun hn => ?_, by omega⟩
          have := h2.1 hn
          omega
        | true =>
          simp only [List.count_cons_self] at h1
          refine ⟨?_, by omega⟩
          cases hm : m s with
          | sole => rfl
          | nothing => have := h2.1 hm; omega
          | shared => have := h2.2 hm; omega
      refine ⟨hal, ih (hf.after hal) (fun a ha => hd a (by simp [ha])) (fun k => ?_)⟩
      have h1 := hc k
      by_cases hk : k = s
      · subst hk
        cases x <;> simp [Held.after, bump] at h1 ⊢ <;> omega
      · have hk' : s ≠ k := Ne.symm hk
        cases x <;> simp [Held.after, bump, hk, hk'] at h1 ⊢ <;> omega

theorem drops_after {h : Held} {D : List Act} (hd : ∀ a ∈ D, a.isDrop)
    (hc : ∀ s, D.count (.drop s false) = h.s s ∧ D.count (.drop s true) = h.x s) : D.foldl Held.after h = Held.zero := by
  induction D generalizing h with
  | nil =>
    obtain ⟨s, x⟩ := h
    simp only [List.foldl_nil, Held.zero, Held.mk.injEq]
    exact ⟨funext fun k => by have := (hc k).1; simpa using this.symm, funext fun k => by have := (hc k).2; simpa using this.symm⟩
  | cons a D ih =>
    cases a with
    | borrow s x => exact (hd (.borrow s x) (by simp) : False).elim
    | clone => exact (hd .clone (by simp) : False).elim
    | drop s x =>
      rw [List.foldl_cons]
      refine ih (fun a ha => hd a (by simp [ha])) (fun k => ?_)
      have h1 := hc k
      by_cases hk : k = s
      · subst hk
        cases x <;> simp [Held.after, bump] at h1 ⊢ <;> omega
      · have hk' : s ≠ k := Ne.symm hk
        cases x <;> simp [Held.after, bump, hk, hk'] at h1 ⊢ <;> omega

mutual
theorem drops_isDrop (v : View) : ∀ a ∈ v.drops, a.isDrop := by
  match v with
  | .unit => simp [View.drops]
  | .view s x all => cases all <;> simp [View.drops, Act.isDrop]
  | .opt none => simp [View.drops]
  | .opt (some v) => simp only [View.drops]; exact drops_isDrop v
  | .tuple vs => simp only [View.drops]; exact dropsAll_isDrop vs
theorem dropsAll_isDrop (vs : List View) : ∀ a ∈ View.dropsAll vs, a.isDrop := by
  match vs with
  | [] => simp [View.dropsAll]
  | v :: vs =>
    intro a ha
    simp only [View.dropsAll, List.mem_append] at ha
    rcases ha with ha | ha
    · exact drops_isDrop v a ha
    · exact dropsAll_isDrop vs a ha
end

mutual
theorem drops_count (v : View) (s : Nat) :
    v.drops.count (.drop s false) = v.sharedOn s ∧ v.drops.count (.drop s true) = v.exclusiveOn s := by
  match v with
  | .unit => simp [View.drops, View.sharedOn, View.exclusiveOn]
  | .view t x all =>
    have e : (t = s) = (s = t) := propext eq_comm
    have e' : (allCell = s) = (s = allCell) := propext eq_comm
    constructor <;>
    (cases all <;> cases x <;> by_cases h1 : s = t <;> by_cases h2 : s = allCell <;>
      simp [View.drops, View.sharedOn, View.exclusiveOn, List.count_cons, e, e', h1, h2] <;> (try split) <;> simp_all)
  | .opt none => simp [View.drops, View.sharedOn, View.exclusiveOn]
  | .opt (some v) => simp only [View.drops, View.sharedOn, View.exclusiveOn]; exact drops_count v s
  | .tuple vs => simp only [View.drops, View.sharedOn, View.exclusiveOn]; exact dropsAll_count vs s
theorem dropsAll_count (vs : List View) (s : Nat) :
    (View.dropsAll vs).count (.drop s false) = View.sharedOnAll s vs
      ∧ (View.dropsAll vs).count (.drop s true) = View.exclusiveOnAll s vs := by
  match vs with
  | [] => simp [View.dropsAll, View.sharedOnAll, View.exclusiveOnAll]
  | v :: vs =>
    simp only [View.dropsAll, View.sharedOnAll, View.exclusiveOnAll, List.count_append]
    have h1 := drops_count v s
    have h2 := dropsAll_count vs s
    omega
end

theorem dropsAll_flatMap (vs : List View) : vs.flatMap View.drops = View.dropsAll vs := by
  induction vs with
  | nil => rfl
  | cons v vs ih => simp only [List.flatMap_cons, View.dropsAll, ih]

/-! ## The parameters of a system -/

/-- The parameter is not `AllStoragesViewMut`. -/
def WReq.NotMut : WReq → Prop
  | .allStorages true => False
  | _ => True

theorem wacts_gains (r : WReq) (h : Held) :
    (∀ k, ((r.acts).foldl Held.after h).s k = h.s k + r.whole.sharedOn k)
      ∧ ∀ k, ((r.acts).foldl Held.after h).x k = h.x k + r.whole.exclusiveOn k := by
  match r with
  | .views r =>
    simp only [WReq.acts, WReq.whole, List.foldl_cons]
    have hb : (h.after (.borrow allCell false)).s allCell = h.s allCell + 1 := by simp [Held.after, bump]
    obtain ⟨h1, h2⟩ := acts_gains r (h.after (.borrow allCell false)) (by omega)
    refine ⟨fun k => ?_, fun k => ?_⟩
    · have e := h1 k
      by_cases hk : k = allCell
      · subst hk
        simp only [if_true] at e
        omega
      · have : (h.after (.borrow allCell false)).s k = h.s k := by simp [Held.after, bump, hk]
        simp only [hk, if_false] at e
        omega
    · have e := h2 k
      have : (h.after (.borrow allCell false)).x k = h.x k := by simp [Held.after]
      omega
  | .allStorages x =>
    refine ⟨fun k => ?_, fun k => ?_⟩ <;> cases x <;> by_cases hk : k = allCell <;>
      simp [WReq.acts, WReq.whole, Held.after, bump, View.sharedOn, View.exclusiveOn, hk]

theorem params_gains (rs : List WReq) (h : Held) :
    (∀ k, ((rs.flatMap WReq.acts).foldl Held.after h).s k = h.s k + View.sharedOnAll k (rs.map WReq.whole))
      ∧ ∀ k, ((rs.flatMap WReq.acts).foldl Held.after h).x k = h.x k + View.exclusiveOnAll k (rs.map WReq.whole) := by
  induction rs generalizing h with
  | nil => simp [View.sharedOnAll, View.exclusiveOnAll]
  | cons r rs ih =>
    simp only [List.flatMap_cons, List.foldl_append, List.map_cons, View.sharedOnAll, View.exclusiveOnAll]
    obtain ⟨h1, h2⟩ := wacts_gains r h
    obtain ⟨h3, h4⟩ := ih (r.acts.foldl Held.after h)
    refine ⟨fun k => ?_, fun k => ?_⟩
    · have := h1 k; have := h3 k; omega
    · have := h2 k; have := h4 k; omega

theorem params_safe {st : Cells} {me : Nat} {m : Nat → Mode} (rs : List WReq) {h : Held} (hnm : ∀ r ∈ rs, r.NotMut)
    (hm : rs ≠ [] → m allCell = .shared) (hsync : st.isSync allCell = true) (hn : Needs st me m (rs.flatMap WReq.leaves) h) :
    Safe st me m h (rs.flatMap WReq.acts) := by
  induction rs generalizing h with
  | nil => trivial
  | cons r rs ih =>
    have hm' := hm (by simp)
    rw [List.flatMap_cons] at hn ⊢
    rw [Safe_append]
    have hpw := List.pairwise_append.mp hn.once
    have hall : Allowed st me m h (.borrow allCell false) :=
      ⟨.inl ⟨hm', fun hs => by rw [hs.1] at hsync; cases hsync⟩, fun hs => by rw [hs] at hsync; cases hsync⟩
    obtain ⟨g1, g2⟩ := wacts_gains r h
    refine ⟨?_, ih (fun r hr => hnm r (by simp [hr])) (fun _ => hm') ⟨fun l hl => hn.storage l (by simp [hl]),
      fun l hl => hn.exclusive l (by simp [hl]), fun l hl => hn.shared l (by simp [hl]), hpw.2.1, fun l hl hs => ?_⟩⟩
    · match r, hnm r (by simp) with
      | .views r, _ =>
        refine ⟨hall, ?_⟩
        refine acts_safe r hm' (by simp [Held.after, bump]) ⟨fun l hl => hn.storage l (by simp [WReq.leaves, hl]),
          fun l hl => hn.exclusive l (by simp [WReq.leaves, hl]), fun l hl => hn.shared l (by simp [WReq.leaves, hl]), hpw.1,
          fun l hl hs => ?_⟩
        have hla := hn.storage l (by simp [WReq.leaves, hl])
        have := hn.free l (by simp [WReq.leaves, hl]) hs
        simpa [Held.after, bump, hla] using this
      | .allStorages false, _ => exact ⟨hall, trivial⟩
    · have hla := hn.storage l (by simp [hl])
      have hf := hn.free l (by simp [hl]) hs
      have e1 := g1 l.1
      have e2 := g2 l.1
      have z1 : r.whole.sharedOn l.1 = 0 := Classical.byContradiction fun hne => by
        match r with
        | .views r => exact hpw.2.2 _ (whole_shared r l.1 hla hne) l hl rfl hs
        | .allStorages x => simp [WReq.whole, View.sharedOn, hla] at hne
      have z2 : r.whole.exclusiveOn l.1 = 0 := Classical.byContradiction fun hne => by
        match r with
        | .views r => exact hpw.2.2 _ (whole_exclusive r l.1 hne) l hl rfl hs
        | .allStorages x => simp [WReq.whole, View.exclusiveOn, hla] at hne
      omega

/-! ## Every interleaving -/

theorem race_inv {base : Cells} {mode : Nat → Nat → Mode} {held : Nat → Held} {st st' : Cells} {ts ts' : List Runner}
    (h : RaceInv base mode held st ts) (hc : Compatible mode ts.length) (hr : Race st ts st' ts') :
    ts'.length = ts.length ∧ ∃ held', RaceInv base mode held' st' ts'
      ∧ ∀ (i : Nat) t t', ts[i]? = some t → ts'[i]? = some t' →
          t.todo.foldl Held.after (held i) = t'.todo.foldl Held.after (held' i) := by
  induction hr with
  | refl =>
    refine ⟨rfl, held, h, fun i t t' h1 h2 => ?_⟩
    rw [h1] at h2
    cases h2
    rfl
  | step hr hi he ih =>
    obtain ⟨hl, held', hinv, hfin⟩ := ih
    obtain ⟨st1, he', hinv'⟩ := hinv.step (by rw [hl]; exact hc) hi
    rw [he] at he'
    cases he'
    refine ⟨by rw [List.length_set]; exact hl, _, hinv', fun j t t' h1 h2 => ?_⟩
    rename_i i me a rest
    by_cases hji : j = i
    · subst hji
      have hil := (List.getElem?_eq_some_iff.mp hi).1
      rw [List.getElem?_set_self hil] at h2
      cases h2
      rw [hfin j t _ h1 hi]
      simp [upd]
    · rw [List.getElem?_set_ne (Ne.symm hji)] at h2
      rw [hfin j t t' h1 h2]
      simp [upd, hji]

end Verif.Borrow
