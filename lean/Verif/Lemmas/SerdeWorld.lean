import Verif.Lemmas.Serde

/-!
# Saving and loading worlds
-/
namespace Verif.Serde
open SparseSet (Abs contents)
open StoSpec (Sto Valid lookup)
open EntSpec (Event issued)
open WSpec (Reach Fits FreeFor)
open World (Ok tabOr reach_ok look)
variable {T C : Type} {fl : Flags}

theorem setK_setK {α : Type} (l : List (Nat × α)) (k : Nat) (a b : α) : setK (setK l k a) k b = setK l k b := by
  induction l with
  | nil => simp [setK]
  | cons x l ih =>
    obtain ⟨j, x⟩ := x
    simp only [setK]
    split
    · rename_i hk; subst hk; simp [setK]
    · rename_i hn
      simp [setK, hn, ih]

theorem setK_self {α : Type} (l : List (Nat × α)) (k : Nat) (a : α) (h : lookupK l k = some a) : setK l k a = l := by
  induction l with
  | nil => cases h
  | cons x l ih =>
    unfold setK
    rw [lookupK] at h
    split
    · rename_i hk
      rw [if_pos hk] at h; cases h; subst hk; rfl
    · rename_i hk
      rw [if_neg hk] at h
      rw [ih h]

theorem put_put (w : World T) (k : Nat) (s t : SparseSet T) : (w.put k s).put k t = w.put k t := by
  unfold World.put; rw [setK_setK]

theorem put_self {w : World T} {k : Nat} {s : SparseSet T} (h : lookupK w.stos k = some s) : w.put k s = w := by
  unfold World.put; rw [setK_self _ _ _ h]

/-- Adding components to alive entities leads to a world made through the API. -/
theorem addMany_reach {h : List Event} (ov : Bool) (now k : Nat) : ∀ (xs : List (EId × T)) {w : World T} {s s' : SparseSet T},
    Reach fl w h → lookupK w.stos k = some s → (∀ x ∈ xs, w.isAlive x.1 = true) →
    addMany ov now xs s = .ok s' → Reach fl (w.put k s') h
  | [], w, s, s', hr, hl, _, he => by
    cases he; rw [put_self hl]; exact hr
  | x :: xs, w, s, s', hr, hl, ha, he => by
    simp only [addMany, bind, Except.bind] at he
    cases h1 : addOne ov now x s with
    | error er => rw [h1] at he; cases he
    | ok s1 =>
      rw [h1] at he
      have hr1 : Reach fl (w.put k s1) h := by
        have : s1 = s ∨ ∃ r, s.insert x.1 x.2 now = .ok (r, s1) := by
          have hins : (do let (_, s') ← s.insert x.1 x.2 now; (.ok s' : Res _)) = .ok s1 →
              ∃ r, s.insert x.1 x.2 now = .ok (r, s1) := by
            intro hh
            simp only [bind, Except.bind] at hh
            cases hi : s.insert x.1 x.2 now with
            | error er => rw [hi] at hh; cases hh
            | ok p => rw [hi] at hh; cases hh; exact ⟨p.1, rfl⟩
          unfold addOne at h1
          cases ov with
          | true =>
            simp only [Bool.not_true, Bool.false_eq_true, if_false] at h1
            exact .inr (hins h1)
          | false =>
            simp only [Bool.not_false, if_true, bind, Except.bind] at h1
            cases hc : s.contains x.1 with
            | error er => rw [hc] at h1; cases h1
            | ok b =>
              rw [hc] at h1
              cases b with
              | true => simp only [if_true] at h1; cases h1; exact .inl rfl
              | false =>
                simp only [Bool.false_eq_true, if_false] at h1
                exact .inr (hins h1)
        rcases this with rfl | ⟨r, hi⟩
        · rw [put_self hl]; exact hr
        · exact .viewAdd hr hl (ha x List.mem_cons_self) hi
      have := addMany_reach ov now k xs hr1 (by
          show lookupK (setK w.stos k s1) k = some s1
          rw [World.lookupK_setK, if_pos rfl])
        (fun y hy => ha y (List.mem_cons_of_mem _ hy)) he
      rwa [put_put] at this

theorem alive_eq {s : Entities} {x y : EId} (hx : s.isAlive x = true) (hy : s.isAlive y = true)
    (h : x.idx = y.idx) : x = y := by
  rw [Entities.Inv.isAlive_iff] at hx hy
  rw [h, hy] at hx
  exact (Option.some.inj hx).symm

theorem tabOr_look (A : Nat → Option (Sto T)) (k : Nat) (e : EId) : lookup (tabOr fl A k).rows e = look A k e := by
  unfold tabOr look
  cases A k with
  | none => rfl
  | some a => rfl

/-- Reading one view of a snapshot of `w`, in a world where the same entities are alive. -/
theorem deView_ok {w w1 : World T} {h h1 : List Event} (hr : Reach fl w h) (hr1 : Reach fl w1 h1)
    (hal : ∀ x, w1.isAlive x = w.isAlive x) (cd : Codec T C) (f : Fmt) (k : Nat) :
    ∃ w2, deView fl cd f k (serView fl cd f w k) w1 = .ok (true, w2) ∧ Reach fl w2 h1 ∧
      (∀ x, w2.isAlive x = w.isAlive x) ∧
      ∀ j e, e.gen < 65535 → ∀ vs v1, w.get j e = .ok vs → w1.get j e = .ok v1 →
        w2.get j e = .ok (if j = k then vs.or v1 else v1) := by
  obtain ⟨A, Q, hok⟩ := reach_ok hr
  obtain ⟨B, Q1, hok1⟩ := reach_ok hr1
  obtain ⟨L, hL⟩ := hok.stoOr (fl := fl) k
  obtain ⟨M, hM⟩ := hok1.stoOr (fl := fl) k
  have halive : ∀ x ∈ (w.stoOr fl k).contents, w1.isAlive x.1 = true := by
    intro x hx
    have h2 := ((contents_mem hL).2.2 x).1 hx
    obtain ⟨r, h3, h4, _⟩ := World.lookup_iff.1 h2
    have h5 := hok.tabOr_owned (fl := fl) k _ _ h3
    rw [h4] at h5
    rw [hal]; exact h5
  obtain ⟨t', b', M', g1, g2, g3, g4, _⟩ := decView_ok hL hM cd f none true w1.counter (fun h => by cases h) (by
    intro x hx r hrow
    have h5 := hok1.tabOr_owned (fl := fl) k _ _ hrow
    exact congrArg EId.gen (alive_eq h5 (halive x hx) rfl))
  refine ⟨(w1.tick).put k t', ?_, ?_, hal, ?_⟩
  · simp only [deView, serView, bind, Except.bind]
    rw [show decView cd f false true w1.counter (encView cd f none (w.stoOr fl k)) (w1.stoOr fl k) = .ok (true, t')
      from g1]
  · have hr2 : Reach fl ((w1.tick).create fl k) h1 := .create k (.clock (w1.counter + 1) hr1)
    have := addMany_reach (fl := fl) true w1.counter k (w.stoOr fl k).contents hr2 (s := w1.stoOr fl k) (s' := t') (by
      show lookupK (setK _ k _) k = _
      rw [World.lookupK_setK, if_pos rfl]; rfl) halive g2
    unfold World.create at this
    rwa [put_put] at this
  · intro j e he vs v1 hvs hv1
    rw [hok.get j he] at hvs
    rw [hok1.get j he] at hv1
    have a1 := Except.ok.inj hvs
    have a2 := Except.ok.inj hv1
    unfold World.get
    show (match lookupK (setK w1.stos k t') j with | some s => s.get e | none => .ok none) = _
    rw [World.lookupK_setK]
    by_cases hj : j = k
    · subst hj
      rw [if_pos rfl, if_pos rfl]
      simp only
      rw [g3.get he, g4, if_pos rfl, tabOr_look, tabOr_look, a1, a2]
    · rw [if_neg hj, if_neg hj]
      have := hok1.get j he
      unfold World.get at this
      rw [a2] at this
      exact this

theorem loadViews_ok {w : World T} {h : List Event} (hr : Reach fl w h) (cd : Codec T C) (f : Fmt) :
    ∀ (ks : List Nat) {w1 : World T} {h1 : List Event}, Reach fl w1 h1 → (∀ x, w1.isAlive x = w.isAlive x) →
    ∃ w2, loadViews fl cd f (ks.map fun k => (k, serView fl cd f w k)) w1 = .ok (true, w2) ∧ Reach fl w2 h1 ∧
      (∀ x, w2.isAlive x = w.isAlive x) ∧
      ∀ j e, e.gen < 65535 → ∀ vs v1, w.get j e = .ok vs → w1.get j e = .ok v1 →
        w2.get j e = .ok (if j ∈ ks then vs.or v1 else v1)
  | [], w1, h1, hr1, hal => by
    refine ⟨w1, rfl, hr1, hal, ?_⟩
    intro j e he vs v1 _ hv1
    rw [if_neg (by simp)]; exact hv1
  | k :: ks, w1, h1, hr1, hal => by
    obtain ⟨w2, a1, a2, a3, a4⟩ := deView_ok hr hr1 hal cd f k
    obtain ⟨w3, b1, b2, b3, b4⟩ := loadViews_ok hr cd f ks a2 a3
    refine ⟨w3, ?_, b2, b3, ?_⟩
    · simp only [List.map_cons, loadViews, a1, bind, Except.bind, if_true]
      exact b1
    · intro j e he vs v1 hvs hv1
      rw [b4 j e he vs _ hvs (a4 j e he vs v1 hvs hv1)]
      by_cases hj : j = k
      · subst hj
        rw [if_pos rfl, if_pos List.mem_cons_self]
        split
        · cases vs <;> simp
        · rfl
      · rw [if_neg hj]
        simp only [List.mem_cons, hj, false_or]

theorem spawnSeq_ok (f : Fmt) : ∀ (es : List EId) {w : World T} {h : List Event}, Reach fl w h →
    es.Pairwise (fun a b => a.idx < b.idx) →
    (∀ e ∈ es, Valid e ∧ e.idx + 1 < EId.maxIndex ∧ w.ents.data.length ≤ e.idx) →
    ∃ ents', spawnSeq (C := C) f (es.map (encId f)) w.ents = .ok (true, ents') ∧
      Reach fl { w with ents := ents' } (h ++ es.map fun e => .spawned e true) ∧
      ∀ x, ents'.isAlive x = true ↔ w.ents.isAlive x = true ∨ x ∈ es
  | [], w, h, hr, _, _ => ⟨w.ents, rfl, by simpa using hr, fun x => by simp⟩
  | e :: es, w, h, hr, hp, hv => by
    rw [List.pairwise_cons] at hp
    obtain ⟨hve, hce, hle⟩ := hv e List.mem_cons_self
    obtain ⟨A, Q, hok⟩ := reach_ok hr
    obtain ⟨s', h1, h2⟩ := Entities.spawn_beyond hok.ent.inv hle (wf_of_valid hve).2 hce
    have hfree : FreeFor w e := by
      intro x hx hi
      have := (hok.ent.inv.isAlive_iff_genAt x).1 hx
      have := Entities.genAt_lt this.2
      omega
    have hlen : s'.data.length = e.idx + 1 := by rw [h2.len]; omega
    have hfit : Fits ({ w with ents := s' } : World T) := by unfold Fits; simp only; omega
    have hr' : Reach fl ({ w with ents := s' } : World T) (h ++ [.spawned e true]) :=
      .spawn hr hve hfree (by simp only [World.spawn, h1, bind, Except.bind]) hfit
    obtain ⟨_, _, hal, _⟩ := hok.spawn hve hfree h1 hfit
    obtain ⟨ents', g1, g2, g3⟩ := spawnSeq_ok f es hr' hp.2 (by
      intro y hy
      obtain ⟨y1, y2, _⟩ := hv y (List.mem_cons_of_mem _ hy)
      exact ⟨y1, y2, by simp only [hlen]; exact hp.1 y hy⟩)
    refine ⟨ents', ?_, ?_, ?_⟩
    · simp only [List.map_cons, spawnSeq, decId_encId f (wf_of_valid hve), bind, Except.bind, h1]
      exact g1
    · simpa using g2
    · intro x
      rw [g3]
      show s'.isAlive x = true ∨ _ ↔ _
      rw [hal rfl x, List.mem_cons, or_assoc]

/-- Reading serialized entities into a store that never held any. -/
theorem deEntities_ok {w o : World T} {h ho : List Event} (hr : Reach fl w h) (hro : Reach fl o ho)
    (hempty : o.ents.data = []) (f : Fmt) :
    ∃ o', deEntities (C := C) f (.seq (w.ents.iter.map (encId f))) o = .ok (true, o') ∧ o'.stos = o.stos ∧
      Reach fl o' (ho ++ w.ents.iter.map fun e => .spawned e true) ∧ ∀ x, o'.isAlive x = w.isAlive x := by
  obtain ⟨A, Q, hok⟩ := reach_ok hr
  obtain ⟨hp, hm⟩ := Entities.iter_alive w.ents
  obtain ⟨ents', h1, h2, h3⟩ := spawnSeq_ok (C := C) f w.ents.iter hro hp (by
    intro e he
    have ha := (hm e).1 he
    refine ⟨hok.ent.valid ha, ?_, by rw [hempty]; exact Nat.zero_le _⟩
    have h4 := Entities.genAt_lt ((hok.ent.inv.isAlive_iff_genAt e).1 ha).2
    have h5 := hok.ent.inv.cap
    omega)
  refine ⟨{ o with ents := ents' }, by simp only [deEntities, decEntities, h1, bind, Except.bind], rfl, h2, fun x => ?_⟩
  rw [Bool.eq_iff_iff]
  show ents'.isAlive x = true ↔ w.ents.isAlive x = true
  rw [h3, hm]
  refine ⟨fun hh => hh.elim (fun h => ?_) id, .inr⟩
  rw [Entities.Inv.isAlive_iff, hempty] at h; simp at h

end Verif.Serde
