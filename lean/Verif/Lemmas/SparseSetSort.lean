import Verif.Lemmas.SparseSetOps2

/-! # Lemmas: in-place sorting, bulk insertion, enabling tracking -/
namespace Verif.SparseSet
open EId (BUCKET_SIZE)
open SparseArray (WFA look has)
variable {T : Type}

/-! ## Following the permutation -/

/-- Following `perm` from a position while it is below `i`. -/
inductive Ends (perm : List Nat) (i : Nat) : Nat → Nat → Prop
  | stop {a} : i ≤ a → Ends perm i a a
  | step {a q b} : a < i → perm[a]? = some q → Ends perm i q b → Ends perm i a b

theorem Ends.ge {perm i a b} (h : Ends perm i a b) : i ≤ b := by
  induction h with
  | stop h => exact h
  | step _ _ _ ih => exact ih

theorem Ends.unique {perm i a b c} (h : Ends perm i a b) (h' : Ends perm i a c) : b = c := by
  induction h with
  | stop h =>
    cases h' with
    | stop => rfl
    | step hlt => omega
  | step hlt hq _ ih =>
    cases h' with
    | stop => omega
    | step hlt' hq' h2 => rw [hq] at hq'; cases hq'; exact ih h2

/-- One more placed position: either the path never reaches `i`, or it goes on from `perm[i]`. -/
theorem Ends.succ {perm i p a b} (hp : perm[i]? = some p) (h : Ends perm (i + 1) a b) :
    (Ends perm i a b ∧ b ≠ i) ∨ (Ends perm i a i ∧ Ends perm (i + 1) p b) := by
  induction h with
  | stop h => exact .inl ⟨.stop (by omega), by omega⟩
  | @step a q b hlt hq hrest ih =>
    by_cases ha : a = i
    · subst ha
      rw [hp] at hq; cases hq
      exact .inr ⟨.stop (Nat.le_refl _), hrest⟩
    · rcases ih with ⟨h1, h2⟩ | ⟨h1, h2⟩
      · exact .inl ⟨.step (by omega) hq h1, h2⟩
      · exact .inr ⟨.step (by omega) hq h1, h2⟩

theorem Ends.mono {perm i a b} (h : Ends perm i a b) (hb : i < b) : Ends perm (i + 1) a b := by
  induction h with
  | stop h => exact .stop (by omega)
  | step hlt hq _ ih => exact .step (by omega) hq (ih hb)

/-- `perm` is injective. -/
theorem perm_inj {perm : List Nat} (hn : perm.Nodup) {a b q : Nat} (ha : perm[a]? = some q)
    (hb : perm[b]? = some q) : a = b :=
  (List.getElem?_inj (getElem?_lt ha) hn).1 (ha.trans hb.symm)

theorem chase_ends {perm : List Nat} {n : Nat} (hn : perm.Nodup) (hlen : perm.length = n)
    (hb : ∀ q ∈ perm, q < n) {i j0 : Nat} (hi : i < n)
    (hj0 : ∀ k < i, perm[k]? ≠ some j0) :
    ∀ (fuel : Nat) (pos : Nat) (V : List Nat), V.Nodup → (∀ v ∈ V, v < i) → i + 1 ≤ V.length + fuel →
      pos ∉ V → pos < n → (∀ v ∈ pos :: V, v = j0 ∨ ∃ u ∈ V, perm[u]? = some v) →
      ∃ q, chase perm i fuel pos = .ok q ∧ Ends perm i pos q ∧ q < n := by
  intro fuel
  induction fuel with
  | zero =>
    intro pos V hV hVi hle _ _ _
    have := nodup_le hV hVi
    omega
  | succ fuel ih =>
    intro pos V hV hVi hle hpos hpn hsrc
    unfold chase
    by_cases hlt : pos < i
    · rw [if_pos hlt]
      have hp : perm[pos]? = some perm[pos] := List.getElem?_eq_getElem (by omega)
      have hv : vecGetU perm pos = .ok perm[pos] := by unfold vecGetU; rw [hp]
      simp only [hv, bind, Except.bind]
      have hnew : perm[pos] ∉ pos :: V := by
        intro hm
        rcases hsrc _ hm with he | ⟨u, hu, he⟩
        · exact hj0 pos hlt (by rw [hp, he])
        · have := perm_inj hn he hp
          exact hpos (this ▸ hu)
      obtain ⟨q, h1, h2, h3⟩ := ih perm[pos] (pos :: V) (List.nodup_cons.2 ⟨hpos, hV⟩) (by
          intro v hv
          rcases List.mem_cons.1 hv with rfl | hv
          · exact hlt
          · exact hVi v hv) (by simp; omega) hnew (hb _ (List.getElem_mem _)) (by
          intro v hv
          rcases List.mem_cons.1 hv with rfl | hv
          · exact .inr ⟨pos, by simp, hp⟩
          · rcases hsrc v hv with h | ⟨u, hu, h⟩
            · exact .inl h
            · exact .inr ⟨u, by simp [hu], h⟩)
      exact ⟨q, h1, .step hlt hp h2, h3⟩
    · rw [if_neg hlt]
      exact ⟨pos, rfl, .stop (by omega), hpn⟩

/-! ## The swapping loop -/

theorem swapAt_map {α β} (f : α → β) {L : List α} {i j : Nat} {a b : α} (hi : L[i]? = some a)
    (hj : L[j]? = some b) : swapAt (L.map f) i j = .ok (((L.set i b).set j a).map f) := by
  unfold swapAt
  rw [List.getElem?_map, List.getElem?_map, hi, hj]
  simp [List.map_set]

theorem swapIf_map {α β} (t : Bool) (f : α → β) {L : List α} {i j : Nat} {a b : α} (hi : L[i]? = some a)
    (hj : L[j]? = some b) : swapIf t (if t then L.map f else []) i j =
      .ok (if t then ((L.set i b).set j a).map f else []) := by
  unfold swapIf
  cases t
  · rfl
  · simp only [if_true]; exact swapAt_map f hi hj

/-- Swapping two elements, position by position. -/
theorem swap_get {α} {L : List α} {i j : Nat} {a b : α} (hi : L[i]? = some a) (hj : L[j]? = some b)
    (k : Nat) : ((L.set i b).set j a)[k]? =
      if k = j then some a else if k = i then some b else L[k]? := by
  have h1 := getElem?_lt hi
  have h2 := getElem?_lt hj
  rw [List.getElem?_set, List.getElem?_set]
  by_cases hkj : k = j
  · subst hkj; simp [h2]
  · rw [if_neg (fun h => hkj h.symm), if_neg hkj]
    by_cases hki : k = i
    · subst hki; simp [h1]
    · rw [if_neg (fun h => hki h.symm), if_neg hki]

theorem sortLoop_ok {perm : List Nat} {sp : SparseArray} {L : List (Cell T)} (hok : SOK sp L)
    (hn : perm.Nodup) (hlen : perm.length = L.length) (hb : ∀ q ∈ perm, q < L.length)
    (s : SparseSet T) :
    ∀ (m i : Nat) (A : List (Cell T)), i + m = L.length → A.length = L.length →
      (∀ k < i, A[k]? = (perm[k]?).bind (L[·]?)) →
      (∀ j q, j < L.length → (∀ k < i, perm[k]? ≠ some j) → Ends perm i j q → A[q]? = L[j]?) →
      ∃ A', sortLoop perm (build s sp A) i m = .ok (build s sp A') ∧ A'.length = L.length ∧
        ∀ k : Nat, A'[k]? = (perm[k]?).bind (L[·]?) := by
  intro m
  induction m with
  | zero =>
    intro i A him hA hdone _
    refine ⟨A, rfl, hA, ?_⟩
    intro k
    rcases Nat.lt_or_ge k i with h | h
    · exact hdone k h
    · rw [List.getElem?_eq_none (by omega), List.getElem?_eq_none (by omega)]; rfl
  | succ m ih =>
    intro i A him hA hdone hrest
    have hp : perm[i]? = some perm[i] := List.getElem?_eq_getElem (by omega)
    generalize hpe : perm[i] = p at hp
    have hpn : p < L.length := hpe ▸ hb _ (List.getElem_mem _)
    have hun : ∀ k < i, perm[k]? ≠ some p := by
      intro k hk he
      have := perm_inj hn he hp
      omega
    obtain ⟨pos, hc, he, hposn⟩ := chase_ends hn hlen hb (i := i) (j0 := p) (by omega) hun (i + 1) p []
      List.nodup_nil (by simp) (by simp) (by simp) hpn (by simp)
    have hposi := he.ge
    obtain ⟨x, hx⟩ : ∃ x, A[i]? = some x := ⟨_, List.getElem?_eq_getElem (by omega)⟩
    obtain ⟨y, hy⟩ : ∃ y, A[pos]? = some y := ⟨_, List.getElem?_eq_getElem (by omega)⟩
    have hyL : L[p]? = some y := by rw [← hrest p pos hpn hun he, hy]
    have hinjL : ∀ {a b : Nat} {c : Cell T}, L[a]? = some c → L[b]? = some c → a = b :=
      fun ha hb => (hok.inj ha hb rfl).1
    obtain ⟨A', h1, h2, h3⟩ := ih (i + 1) ((A.set i y).set pos x) (by omega) (by simp [hA]) (by
        intro k hk
        rw [swap_get hx hy]
        by_cases hki : k = i
        · subst hki
          by_cases hkp : k = pos
          · subst hkp
            rw [if_pos rfl]
            rw [hx] at hy; cases hy
            rw [hp]; exact hyL.symm
          · rw [if_neg hkp, if_pos rfl, hp]; exact hyL.symm
        · rw [if_neg (by omega), if_neg hki]
          exact hdone k (by omega)) (by
        intro j q hj hju hends
        have hjp : j ≠ p := fun h => hju i (by omega) (h ▸ hp)
        have hju' : ∀ k < i, perm[k]? ≠ some j := fun k hk => hju k (by omega)
        rw [swap_get hx hy]
        rcases hends.succ hp with ⟨g1, g2⟩ | ⟨g1, g2⟩
        · have hq := hrest j q hj hju' g1
          by_cases hqp : q = pos
          · subst hqp
            rw [hy] at hq
            exact absurd (hinjL hq.symm hyL) hjp
          · rw [if_neg hqp, if_neg g2]; exact hq
        · have hq := hrest j i hj hju' g1
          by_cases hpi : pos = i
          · subst hpi
            rw [hy] at hq
            exact absurd (hinjL hq.symm hyL) hjp
          · have := g2.unique (he.mono (by omega))
            rw [if_pos this, ← hq, hx])
    refine ⟨A', ?_, h2, h3⟩
    unfold sortLoop
    have hv : vecGetU perm i = .ok p := by unfold vecGetU; rw [hp]
    simp only [hv, hc, bind, Except.bind, build_dense, build_data, build_trkIns, build_trkMod]
    rw [swapAt_map (fun x => x.id) hx hy, swapAt_map (fun x => x.val) hx hy]
    simp only
    have hi1 := swapIf_map s.trkIns (fun x => x.ins) hx hy
    have hm1 := swapIf_map s.trkMod (fun x => x.mod) hx hy
    have e1 : (build s sp A).insertionData = if s.trkIns then A.map (·.ins) else [] := rfl
    rw [e1, modData, hi1]
    simp only
    rw [hm1]
    exact h1

theorem reindex_ok : ∀ (es : List EId) (i : Nat) (sp : SparseArray), WFA sp →
    (∀ e ∈ es, has sp (e.idx / BUCKET_SIZE)) → (es.map (·.idx)).Nodup →
    i + es.length ≤ EId.INDEX_MASK →
    ∃ sp', reindex sp i es = .ok sp' ∧ WFA sp' ∧
      (∀ k e, es[k]? = some e → look sp' e.idx = ⟨i + k, (look sp e.idx).gen⟩) ∧
      (∀ j, (∀ e ∈ es, e.idx ≠ j) → look sp' j = look sp j) := by
  intro es
  induction es with
  | nil => intro i sp hw _ _ _; exact ⟨sp, rfl, hw, by intro k e h; simp at h, fun _ _ => rfl⟩
  | cons e es ih =>
    intro i sp hw hp hnd hle
    rw [List.map_cons, List.nodup_cons] at hnd
    have hpe := hp e (by simp)
    have hg := SparseArray.getU_look hw hpe
    simp only [List.length_cons] at hle
    obtain ⟨sp1, h1, h2, h3, h4⟩ := SparseArray.setU_look hw hpe ⟨i, (look sp e.idx).gen⟩
    obtain ⟨sp2, g1, g2, g3, g4⟩ := ih (i + 1) sp1 h2 (fun x hx => (h4 _).2 (hp x (by simp [hx]))) hnd.2
      (by omega)
    have hne : ∀ x ∈ es, x.idx ≠ e.idx := fun x hx he => hnd.1 (List.mem_map.2 ⟨x, hx, he⟩)
    refine ⟨sp2, ?_, g2, ?_, ?_⟩
    · unfold reindex
      have hs : (look sp e.idx).setIndex i = .ok ⟨i, (look sp e.idx).gen⟩ := by
        unfold EId.setIndex; rw [if_pos (by omega)]
      simp only [hg, hs, h1, bind, Except.bind, g1]
    · intro k x hx
      cases k with
      | zero =>
        simp only [List.getElem?_cons_zero, Option.some.injEq] at hx
        subst hx
        rw [g4 _ hne, h3, if_pos rfl]; rfl
      | succ k =>
        rw [List.getElem?_cons_succ] at hx
        have hxm := List.mem_of_getElem? hx
        rw [g3 k x hx, h3, if_neg (hne x hxm)]
        congr 1; omega
    · intro j hj
      rw [g4 j (fun x hx => hj x (by simp [hx])), h3, if_neg]
      exact fun h => hj e (by simp) h.symm

/-- Sorting rearranges the cells as `perm` says. -/
theorem sortWith_ok {perm : List Nat} {s : SparseSet T} {sp : SparseArray} {L : List (Cell T)}
    (h : SOK sp L) (hperm : perm.Perm (List.range L.length)) :
    ∃ sp' L', (build s sp L).sortWith perm = .ok (build s sp' L') ∧ SOK sp' L' ∧
      L'.length = L.length ∧ (∀ k : Nat, L'[k]? = (perm[k]?).bind (L[·]?)) ∧ (∀ c, c ∈ L' ↔ c ∈ L) := by
  have hn : perm.Nodup := hperm.nodup_iff.2 List.nodup_range
  have hlen : perm.length = L.length := by rw [hperm.length_eq]; simp
  have hb : ∀ q ∈ perm, q < L.length := fun q hq => List.mem_range.1 (hperm.mem_iff.1 hq)
  obtain ⟨A, h1, h2, h3⟩ := sortLoop_ok h hn hlen hb s L.length 0 L (by omega) rfl (by simp) (by
    intro j q _ _ he
    cases he with
    | stop => rfl
    | step hlt => omega)
  have hmem : ∀ c, c ∈ A ↔ c ∈ L := by
    intro c
    constructor
    · intro hc
      obtain ⟨k, hk⟩ := List.mem_iff_getElem?.1 hc
      rw [h3] at hk
      cases hp : perm[k]? with
      | none => rw [hp] at hk; cases hk
      | some q => rw [hp] at hk; exact List.mem_of_getElem? hk
    · intro hc
      obtain ⟨j, hj⟩ := List.mem_iff_getElem?.1 hc
      have : j ∈ perm := hperm.mem_iff.2 (List.mem_range.2 (getElem?_lt hj))
      obtain ⟨k, hk⟩ := List.mem_iff_getElem?.1 this
      refine List.mem_of_getElem? (i := k) ?_
      rw [h3, hk]; exact hj
  have hAinj : ∀ {a b : Nat} {c d : Cell T}, A[a]? = some c → A[b]? = some d → c.id.idx = d.id.idx →
      a = b := by
    intro a b c d ha hb' he
    rw [h3] at ha hb'
    cases hp : perm[a]? with
    | none => rw [hp] at ha; cases ha
    | some q =>
      cases hp' : perm[b]? with
      | none => rw [hp'] at hb'; cases hb'
      | some q' =>
        rw [hp] at ha; rw [hp'] at hb'
        have hq := (h.inj ha hb' he).1
        subst hq
        exact perm_inj hn hp hp'
  obtain ⟨sp', g1, g2, g3, g4⟩ := reindex_ok (A.map (·.id)) 0 sp h.wfa (by
      intro e he
      obtain ⟨c, hc, rfl⟩ := List.mem_map.1 he
      exact h.page ((hmem c).1 hc)) (by
      rw [List.map_map, List.nodup_iff_pairwise_ne, List.pairwise_map, List.pairwise_iff_getElem]
      intro a b ha hb' hab he
      have := hAinj (List.getElem?_eq_getElem ha) (List.getElem?_eq_getElem hb') he
      omega) (by
      have := h.length_le
      simp; omega)
  refine ⟨sp', A, ?_, ?_, h2, h3, hmem⟩
  · unfold sortWith
    rw [hlen]
    simp only [h1, bind, Except.bind, build_sparse, build_dense, g1]
    rfl
  · refine ⟨g2, ?_, ?_, fun c hc => h.cells c ((hmem c).1 hc)⟩
    · intro k c hk
      have hk' : (A.map (·.id))[k]? = some c.id := by rw [List.getElem?_map, hk]; rfl
      rw [g3 k c.id hk']
      obtain ⟨j, hj⟩ := List.mem_iff_getElem?.1 ((hmem c).1 (List.mem_of_getElem? hk))
      rw [h.hit j c hj]
      simp
    · intro j hj
      rw [g4 j (by
        intro e he
        obtain ⟨c, hc, rfl⟩ := List.mem_map.1 he
        exact hj c hc)]
      exact h.miss j (fun c hc => hj c ((hmem c).2 hc))

/-! ## Bulk insertion -/

theorem bulkFill_ok : ∀ (es : List EId) (i : Nat) (sp : SparseArray), WFA sp →
    (∀ e ∈ es, has sp (e.idx / BUCKET_SIZE)) → (es.map (·.idx)).Nodup →
    i + es.length ≤ EId.INDEX_MASK →
    ∃ sp', bulkFill sp i es = .ok sp' ∧ WFA sp' ∧
      (∀ k e, es[k]? = some e → look sp' e.idx = ⟨i + k, 0⟩) ∧
      (∀ j, (∀ e ∈ es, e.idx ≠ j) → look sp' j = look sp j) := by
  intro es
  induction es with
  | nil => intro i sp hw _ _ _; exact ⟨sp, rfl, hw, by intro k e h; simp at h, fun _ _ => rfl⟩
  | cons e es ih =>
    intro i sp hw hp hnd hle
    rw [List.map_cons, List.nodup_cons] at hnd
    have hpe := hp e (by simp)
    simp only [List.length_cons] at hle
    obtain ⟨sp1, h1, h2, h3, h4⟩ := SparseArray.setU_look hw hpe ⟨i, 0⟩
    obtain ⟨sp2, g1, g2, g3, g4⟩ := ih (i + 1) sp1 h2 (fun x hx => (h4 _).2 (hp x (by simp [hx]))) hnd.2
      (by omega)
    have hne : ∀ x ∈ es, x.idx ≠ e.idx := fun x hx he => hnd.1 (List.mem_map.2 ⟨x, hx, he⟩)
    refine ⟨sp2, ?_, g2, ?_, ?_⟩
    · unfold bulkFill
      have hs : EId.new i = .ok ⟨i, 0⟩ := by unfold EId.new; rw [if_pos (by omega)]
      simp only [hs, h1, bind, Except.bind, g1]
    · intro k x hx
      cases k with
      | zero =>
        simp only [List.getElem?_cons_zero, Option.some.injEq] at hx
        subst hx
        rw [g4 _ hne, h3, if_pos rfl]; rfl
      | succ k =>
        rw [List.getElem?_cons_succ] at hx
        rw [g3 k x hx]
        congr 1; omega
    · intro j hj
      rw [g4 j (fun x hx => hj x (by simp [hx])), h3, if_neg]
      exact fun h => hj e (by simp) h.symm

/-- The cells made by `bulk_insert`. -/
def bulkCells (start stamp : Nat) : Nat → List T → List (Cell T)
  | _, [] => []
  | k, v :: vs => ⟨⟨start + k, 0⟩, 0, v, stamp, 0⟩ :: bulkCells start stamp (k + 1) vs

theorem bulkCells_length (start stamp : Nat) : ∀ (vs : List T) (k : Nat),
    (bulkCells start stamp k vs).length = vs.length := by
  intro vs
  induction vs with
  | nil => intro k; rfl
  | cons v vs ih => intro k; simp [bulkCells, ih]

theorem bulkCells_get (start stamp : Nat) : ∀ (vs : List T) (k i : Nat),
    (bulkCells start stamp k vs)[i]? = (vs[i]?).map fun v => ⟨⟨start + (k + i), 0⟩, 0, v, stamp, 0⟩ := by
  intro vs
  induction vs with
  | nil => intro k i; rfl
  | cons v vs ih =>
    intro k i
    cases i with
    | zero => rfl
    | succ i =>
      simp only [bulkCells, List.getElem?_cons_succ, ih]
      congr; funext v; simp; omega

theorem bulkCells_mem {start stamp : Nat} {vs : List T} {c : Cell T}
    (h : c ∈ bulkCells start stamp 0 vs) :
    ∃ i v, vs[i]? = some v ∧ c = ⟨⟨start + i, 0⟩, 0, v, stamp, 0⟩ := by
  obtain ⟨i, hi⟩ := List.mem_iff_getElem?.1 h
  rw [bulkCells_get] at hi
  cases hv : vs[i]? with
  | none => rw [hv] at hi; cases hi
  | some v =>
    rw [hv] at hi
    simp only [Option.map_some, Option.some.injEq, Nat.zero_add] at hi
    exact ⟨i, v, hv, hi.symm⟩

theorem bulkInsert_ok {s : SparseSet T} {sp : SparseArray} {L : List (Cell T)} (h : SOK sp L)
    (start stamp : Nat) (vs : List T) (hne : vs ≠ []) (hm : start + vs.length ≤ EId.INDEX_MASK)
    (hfresh : ∀ c ∈ L, c.id.idx < start) :
    ∃ sp', (build s sp L).bulkInsert ((List.range vs.length).map fun k => ⟨start + k, 0⟩) vs stamp =
        .ok (build s sp' (L ++ bulkCells start stamp 0 vs)) ∧
      SOK sp' (L ++ bulkCells start stamp 0 vs) := by
  have hpos : 0 < vs.length := List.length_pos_iff.2 hne
  have hids : ((List.range vs.length).map fun k => (⟨start + k, 0⟩ : EId)) =
      (bulkCells start stamp 0 vs).map (·.id) := by
    apply List.ext_getElem?
    intro i
    simp only [List.getElem?_map, bulkCells_get, Nat.zero_add]
    rcases Nat.lt_or_ge i vs.length with hi | hi
    · rw [List.getElem?_range hi, List.getElem?_eq_getElem hi]; rfl
    · rw [List.getElem?_eq_none (by simpa using hi), List.getElem?_eq_none hi]; rfl
  have hvals : vs = (bulkCells start stamp 0 vs).map (·.val) := by
    apply List.ext_getElem?
    intro i
    simp only [List.getElem?_map, bulkCells_get]
    cases vs[i]? <;> rfl
  have hL : L.length ≤ start := by
    have := nodup_le h.nodup (n := start) (by
      intro x hx
      obtain ⟨c, hc, rfl⟩ := List.mem_map.1 hx
      exact hfresh c hc)
    simpa using this
  have hfirst : (L.map (·.id) ++ (bulkCells start stamp 0 vs).map (·.id))[L.length]? =
      some ⟨start, 0⟩ := by
    rw [List.getElem?_append_right (by simp)]
    simp only [List.length_map, Nat.sub_self, List.getElem?_map, bulkCells_get]
    rw [List.getElem?_eq_getElem hpos]; rfl
  have hlast : (L.map (·.id) ++ (bulkCells start stamp 0 vs).map (·.id))[
      (L.map (·.id) ++ (bulkCells start stamp 0 vs).map (·.id)).length - 1]? =
      some ⟨start + (vs.length - 1), 0⟩ := by
    have hl : (L.map (·.id) ++ (bulkCells start stamp 0 vs).map (·.id)).length - 1 =
        L.length + (vs.length - 1) := by simp [bulkCells_length]; omega
    rw [hl, List.getElem?_append_right (by simp)]
    simp only [List.length_map, Nat.add_sub_cancel_left, List.getElem?_map, bulkCells_get]
    rw [List.getElem?_eq_getElem (by omega)]
    simp
  obtain ⟨sp1, a1, a2, a3, a4⟩ := SparseArray.bulkAllocate_look h.wfa (s := ⟨start, 0⟩)
    (e := ⟨start + (vs.length - 1), 0⟩) (Nat.le_add_right _ _)
  obtain ⟨sp2, b1, b2, b3, b4⟩ := bulkFill_ok ((bulkCells start stamp 0 vs).map (·.id)) L.length sp1 a2
    (by
      intro e he
      obtain ⟨c, hc, rfl⟩ := List.mem_map.1 he
      obtain ⟨i, v, hi, rfl⟩ := bulkCells_mem hc
      refine (a4 _).2 (.inr ⟨?_, ?_⟩)
      · exact Nat.div_le_div_right (Nat.le_add_right _ _)
      · refine Nat.div_le_div_right ?_
        have := getElem?_lt hi
        show start + i ≤ start + (vs.length - 1)
        omega)
    (by
      rw [← hids, List.map_map, List.nodup_iff_pairwise_ne, List.pairwise_map]
      refine List.nodup_range.imp ?_
      intro a b hab he
      simp only [Function.comp] at he
      omega)
    (by simp [bulkCells_length]; omega)
  refine ⟨sp2, ?_, ?_⟩
  · unfold bulkInsert
    simp only [build_dense, build_data, build_sparse, build_trkIns, build_trkMod, List.length_map]
    rw [hids, hfirst, hlast]
    simp only [a1, b1, bind, Except.bind]
    have e1 : (build s sp L).insertionData = if s.trkIns then L.map (·.ins) else [] := rfl
    have hmi : (bulkCells start stamp 0 vs).map (·.ins) =
        ((bulkCells start stamp 0 vs).map (·.id)).map fun _ => stamp := by
      rw [List.map_map]
      refine List.map_congr_left ?_
      intro c hc
      obtain ⟨i, v, hi, rfl⟩ := bulkCells_mem hc; rfl
    have hmm : (bulkCells start stamp 0 vs).map (·.mod) =
        ((bulkCells start stamp 0 vs).map (·.id)).map fun _ => 0 := by
      rw [List.map_map]
      refine List.map_congr_left ?_
      intro c hc
      obtain ⟨i, v, hi, rfl⟩ := bulkCells_mem hc; rfl
    rw [e1, modData, ← hmi, ← hmm]
    conv => lhs; rw [hvals]
    unfold build
    simp only [List.map_append]
    rw [← hvals]
    cases s.trkIns <;> cases s.trkMod <;> simp
  · refine ⟨b2, ?_, ?_, ?_⟩
    · intro i c hi
      rcases Nat.lt_or_ge i L.length with hl | hl
      · rw [List.getElem?_append_left hl] at hi
        have hcL := List.mem_of_getElem? hi
        rw [b4 _ (by
          intro e he
          obtain ⟨d, hd, rfl⟩ := List.mem_map.1 he
          obtain ⟨k, v, hk, rfl⟩ := bulkCells_mem hd
          have := hfresh c hcL
          show start + k ≠ c.id.idx
          omega), a3]
        exact h.hit i c hi
      · rw [List.getElem?_append_right hl] at hi
        have hg : ((bulkCells start stamp 0 vs).map (·.id))[i - L.length]? = some c.id := by
          rw [List.getElem?_map, hi]; rfl
        rw [b3 _ _ hg]
        obtain ⟨k, v, hk, rfl⟩ := bulkCells_mem (List.mem_of_getElem? hi)
        simp only [EId.mk.injEq, and_true]
        omega
    · intro j hj
      rw [b4 j (by
        intro e he
        obtain ⟨d, hd, rfl⟩ := List.mem_map.1 he
        exact hj d (by simp [hd])), a3]
      exact h.miss j (fun c hc => hj c (by simp [hc]))
    · intro c hc
      rcases List.mem_append.1 hc with hc | hc
      · exact h.cells c hc
      · obtain ⟨i, v, hi, rfl⟩ := bulkCells_mem hc
        have := getElem?_lt hi
        refine ⟨by simp, by simp, by simp, ?_⟩
        show start + i < EId.INDEX_MASK
        omega

/-! ## Turning tracking on -/

theorem SOK.mapStamp {sp : SparseArray} {L : List (Cell T)} (h : SOK sp L) (f : Cell T → Cell T)
    (hf : ∀ c, (f c).id = c.id ∧ (f c).gen = c.gen) : SOK sp (L.map f) := by
  refine ⟨h.wfa, ?_, ?_, ?_⟩
  · intro i c hi
    rw [List.getElem?_map] at hi
    cases hL : L[i]? with
    | none => rw [hL] at hi; cases hi
    | some d =>
      rw [hL] at hi
      simp only [Option.map_some, Option.some.injEq] at hi
      subst hi
      rw [(hf d).1, (hf d).2]; exact h.hit i d hL
  · intro j hj
    refine h.miss j ?_
    intro c hc he
    exact hj (f c) (List.mem_map.2 ⟨c, hc, rfl⟩) (by rw [(hf c).1]; exact he)
  · intro c hc
    obtain ⟨d, hd, rfl⟩ := List.mem_map.1 hc
    rw [(hf d).1, (hf d).2]; exact h.cells d hd

theorem map_const {α β} (L : List α) (b : β) : L.map (fun _ => b) = List.replicate L.length b := by
  induction L with
  | nil => rfl
  | cons a L ih => simp [ih, List.replicate_succ]

theorem trackInsertion_ok (s : SparseSet T) (sp : SparseArray) (L : List (Cell T)) :
    (build s sp L).trackInsertion = build { s with trkIns := true } sp
      (if s.trkIns then L else L.map fun c => { c with ins := 0 }) := by
  unfold trackInsertion
  rw [build_trkIns]
  cases h : s.trkIns
  · simp only [Bool.false_eq_true, if_false]
    unfold build
    simp [h, List.map_map, Function.comp_def, map_const]
  · simp only [if_true]
    unfold build
    simp [h]

theorem trackModification_ok (s : SparseSet T) (sp : SparseArray) (L : List (Cell T)) :
    (build s sp L).trackModification = build { s with trkMod := true } sp
      (if s.trkMod then L else L.map fun c => { c with mod := 0 }) := by
  unfold trackModification
  rw [build_trkMod]
  cases h : s.trkMod
  · simp only [Bool.false_eq_true, if_false]
    unfold build
    simp [h, List.map_map, Function.comp_def, map_const]
  · simp only [if_true]
    unfold build
    simp [h]

end Verif.SparseSet
