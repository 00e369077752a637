import Verif.Lemmas.WorldOps

/-! Adding in bulk, spawning, views and the calls between two worlds. -/
namespace Verif.World
open EntSpec (Event issued aliveStep)
open StoSpec (Sto Row lookup setRow Valid removeRow insertRow)
open Entities (Inv Bounded genAt Effect)
open SparseSet (Abs)
variable {V : Type} {fl : Flags}

/-! ## Adding in bulk -/

/-- The component a column gives to `x`, the new entities having the indices from `start`. -/
def colAt (cols : List (Nat × List V)) (start k : Nat) (x : EId) : Option V :=
  (lookupK cols k).bind fun vs => if x.gen = 0 ∧ start ≤ x.idx then vs[x.idx - start]? else none

theorem bulkInsert_tab {s : SparseSet V} {a : Sto V} {L} (h : AbsW s a L) {start : Nat} {vs : List V}
    (hne : vs ≠ []) (hm : start + vs.length ≤ EId.INDEX_MASK)
    (hr : ∀ i r, a.rows i = some r → i < start) (stamp : Nat) :
    ∃ s' L', s.bulkInsert ((List.range vs.length).map fun k => ⟨start + k, 0⟩) vs stamp = .ok s' ∧
      AbsW s' (StoSpec.step a (.bulk start stamp vs)) L' := by
  have hL : ∀ c ∈ L, c.id.idx < start := by
    intro c hc
    refine hr c.id.idx c.toRow ?_
    rw [h.rows, (SparseSet.cellAt_some h.ok).2 ⟨hc, rfl⟩]; rfl
  obtain ⟨sp', h1, _⟩ := SparseSet.bulkInsert_ok (s := s) h.ok start stamp vs hne hm hL
  rw [← h.shape] at h1
  have hd : s.dense = L.map (·.id) := congrArg SparseSet.dense h.shape
  have hst : StoSpec.Step s (.bulk start stamp vs) _ := .bulk (by
    intro e he
    rw [hd] at he
    obtain ⟨c, hc, rfl⟩ := List.mem_map.1 he
    exact hL c hc) hm h1
  obtain ⟨L', hL'⟩ := h.call hst (fun _ _ _ h => by cases h)
  exact ⟨_, L', h1, hL'⟩

theorem Ok.bulkCols {w : World V} {A : Nat → Option (Sto V)} {Q : List Nat} {I : List EId} (h : Ok w A Q I)
    {start n : Nat} (hn : 0 < n) (hm : start + n ≤ EId.INDEX_MASK)
    (hal : ∀ i, i < n → w.ents.isAlive ⟨start + i, 0⟩ = true) (stamp : Nat) (cols : List (Nat × List V))
    (hlen : ∀ c ∈ cols, c.2.length = n) (hnd : (cols.map Prod.fst).Nodup)
    (hrows : ∀ k ∈ cols.map Prod.fst, ∀ a i r, A k = some a → a.rows i = some r → i < start) :
    ∃ w' A', bulkCols fl ((List.range n).map fun k => ⟨start + k, 0⟩) stamp cols w = .ok w' ∧
      w'.ents = w.ents ∧ w'.counter = w.counter ∧ Ok w' A' Q I ∧
      ∀ k x, look A' k x = (colAt cols start k x).or (look A k x) := by
  induction cols generalizing w A with
  | nil => exact ⟨w, A, rfl, rfl, rfl, h, fun k x => rfl⟩
  | cons c cols ih =>
    obtain ⟨j, vs⟩ := c
    have hvs : vs.length = n := hlen (j, vs) List.mem_cons_self
    obtain ⟨L, hL⟩ := h.stoOr (fl := fl) j
    have hr : ∀ i r, (tabOr fl A j).rows i = some r → i < start := by
      intro i r hr
      unfold tabOr at hr
      cases hA : A j with
      | none => rw [hA] at hr; cases hr
      | some a => rw [hA] at hr; exact hrows j (by simp) a i r hA hr
    obtain ⟨s', L', hb, hs'⟩ := bulkInsert_tab hL (vs := vs) (by rintro rfl; simp at hvs; omega)
      (by rw [hvs]; exact hm) hr stamp
    rw [hvs] at hb
    have hput := h.put j hs' (by
      intro i r hr'
      simp only [StoSpec.step] at hr'
      split at hr'
      · rename_i hi
        split at hr'
        · rename_i v hv
          cases hr'
          have := hal (i - start) (by
            have := SparseSet.getElem?_lt hv
            omega)
          rw [show start + (i - start) = i from by omega] at this
          exact this
        · exact h.tabOr_owned (fl := fl) j i r hr'
      · exact h.tabOr_owned (fl := fl) j i r hr')
    simp only [List.map_cons, List.nodup_cons] at hnd
    obtain ⟨w', A', h1, h2, h3, h4, h5⟩ := ih hput hal (fun c hc => hlen c (List.mem_cons_of_mem _ hc)) hnd.2 (by
      intro k hk a i r hA hr'
      unfold setTab at hA
      rw [if_neg (by rintro rfl; exact hnd.1 hk)] at hA
      exact hrows k (List.mem_cons_of_mem _ hk) a i r hA hr')
    refine ⟨w', A', ?_, h2, h3, h4, ?_⟩
    · simp only [World.bulkCols, hb, bind, Except.bind]; exact h1
    · intro k x
      rw [h5, look_setTab]
      by_cases hk : k = j
      · subst hk
        have hnone : colAt cols start k x = none := by
          unfold colAt
          rw [lookupK_none.2 hnd.1]; rfl
        rw [hnone]
        simp only [Option.none_or, if_true]
        rw [← lookup_tabOr (fl := fl) A k x]
        unfold colAt
        simp only [lookupK, if_true, Option.bind]
        unfold lookup StoSpec.step
        simp only
        by_cases hx : start ≤ x.idx
        · have hno : (tabOr fl A k).rows x.idx = none := by
            cases hrr : (tabOr fl A k).rows x.idx with
            | none => rfl
            | some r => have := hr _ r hrr; omega
          rw [if_pos hx, hno]
          cases hv : vs[x.idx - start]? with
          | none => simp
          | some v =>
            simp only [Option.bind, hx, and_true]
            by_cases hg : x.gen = 0
            · simp [hg]
            · have hg' : ¬ 0 = x.gen := fun h => hg h.symm
              simp [hg, hg']
        · rw [if_neg hx, if_neg (fun h => hx h.2)]
          simp
      · rw [if_neg hk]
        unfold colAt
        simp only [lookupK, if_neg hk]

theorem freshIds_total : ∀ (n start : Nat), start + n ≤ EId.maxIndex →
    ∃ l, Entities.freshIds start n = .ok l := by
  intro n
  induction n with
  | zero => intro start _; exact ⟨[], rfl⟩
  | succ n ih =>
    intro start h
    obtain ⟨l, hl⟩ := ih (start + 1) (by omega)
    have hnew : EId.new start = .ok ⟨start, 0⟩ := by
      unfold EId.new
      rw [if_pos (by have : EId.maxIndex < EId.INDEX_MASK := by decide
                     omega)]
    exact ⟨⟨start, 0⟩ :: l, by simp only [Entities.freshIds, hnew, hl, bind, Except.bind]⟩

theorem Ok.bulkAddEntity {w : World V} {A : Nat → Option (Sto V)} {Q : List Nat} {I : List EId}
    (h : Ok w A Q I) {cols : List (Nat × List V)} {n : Nat} (hn : 0 < n)
    (hlen : ∀ c ∈ cols, c.2.length = n) (hnd : (cols.map Prod.fst).Nodup)
    (hcap : w.ents.data.length + n < EId.maxIndex) :
    ∃ es w' A' Q', w.bulkAddEntity fl cols n = .ok (es, w') ∧
      es = (List.range n).map (fun i => ⟨w.ents.data.length + i, 0⟩) ∧
      w'.ents.data.length = w.ents.data.length + n ∧
      Ok w' A' Q' (I ++ es) ∧
      (∀ x, w'.ents.isAlive x = true ↔ w.ents.isAlive x = true ∨ x ∈ es) ∧
      (∀ x ∈ es, w.ents.isAlive x = false) ∧
      ∀ k x, look A' k x = (colAt cols w.ents.data.length k x).or (look A k x) := by
  obtain ⟨es, hes⟩ := freshIds_total n w.ents.data.length (by omega)
  have hb : w.ents.bulkGenerate n = .ok (es, { w.ents with data := w.ents.data ++ es }) := by
    simp only [Entities.bulkGenerate, hes, bind, Except.bind]
  have hcap' : ({ w.ents with data := w.ents.data ++ es } : Entities).data.length < EId.maxIndex := by
    have hll : ∀ n start l, Entities.freshIds start n = .ok l → l.length = n := by
      intro n
      induction n with
      | zero => intro start l hl; cases hl; rfl
      | succ n ih =>
        intro start l hl
        unfold Entities.freshIds at hl
        rcases h1 : EId.new start with er | x
        · rw [h1] at hl; cases hl
        · rcases h2 : Entities.freshIds (start + 1) n with er | y
          · rw [h1, h2] at hl; cases hl
          · rw [h1, h2] at hl; cases hl; simp [ih _ _ h2]
    simp [hll _ _ _ hes]; omega
  obtain ⟨⟨Q', hE⟩, he, hdata, hal, hlt⟩ := ent_bulk h.ent hb hcap'
  have hmem : ∀ i, i < n → (⟨w.ents.data.length + i, 0⟩ : EId) ∈ es := by
    intro i hi
    rw [he]
    exact List.mem_map.2 ⟨i, List.mem_range.2 hi, rfl⟩
  have h1 : Ok ⟨{ w.ents with data := w.ents.data ++ es }, w.stos,
      if decide (cols.length = 1) then w.counter + 1 else w.counter⟩ A Q' (I ++ es) :=
    ⟨hE, h.nodup, h.sto, fun k a ha i r hr => (hal _).2 (.inl (h.owned k a ha i r hr))⟩
  have hmm : EId.maxIndex < EId.INDEX_MASK := by decide
  obtain ⟨w', A', h2, h3, h4, h5, h6⟩ := h1.bulkCols (fl := fl) hn (start := w.ents.data.length) (by omega)
    (fun i hi => (hal _).2 (.inr (hmem i hi)))
    (if decide (cols.length = 1) then w.counter else 0) cols hlen hnd (by
      intro k _ a i r hA hr
      exact hlt _ (h.owned k a hA i r hr))
  refine ⟨es, w', A', Q', ?_, he, ?_, h5, ?_, ?_, h6⟩
  · rw [← he] at h2
    simp only [World.bulkAddEntity, hb, bind, Except.bind]
    rw [h2]
    simp only [h3, List.drop_left]
  · rw [h3]
    simp [he]
  · intro x; rw [h3]; exact hal x
  · intro x hx
    cases hb : w.ents.isAlive x with
    | false => rfl
    | true =>
      have := hlt x hb
      rw [he] at hx
      obtain ⟨i, _, rfl⟩ := List.mem_map.1 hx
      simp only at this
      omega

/-! ## Spawning -/

theorem Ok.spawn {w : World V} {A : Nat → Option (Sto V)} {Q : List Nat} {I : List EId}
    (h : Ok w A Q I) {e : EId} (hv : Valid e) (hfree : WSpec.FreeFor w e) {b ents}
    (hs : w.ents.spawn e = .ok (b, ents)) (hcap : ents.data.length < EId.maxIndex) :
    ∃ Q', Ok { w with ents := ents } A Q' (I ++ (Event.spawned e b).issued) ∧
      (b = true → ∀ x, ents.isAlive x = true ↔ w.ents.isAlive x = true ∨ x = e) ∧
      (b = false → ents = w.ents) := by
  obtain ⟨⟨Q', hE⟩, ht, hf⟩ := ent_spawn h.ent hv hs hcap
  have hal : b = true → ∀ x, ents.isAlive x = true ↔ w.ents.isAlive x = true ∨ x = e := by
    intro hb x
    rw [ht hb x]
    constructor
    · rintro (h | h)
      · exact .inl h.1
      · exact .inr h
    · rintro (h | h)
      · by_cases hi : x.idx = e.idx
        · exact .inr (hfree x h hi)
        · exact .inl ⟨h, hi⟩
      · exact .inr h
  refine ⟨Q', h.ents hE ?_, hal, hf⟩
  intro k a i r hA hr
  have hold := h.owned k a hA i r hr
  cases b with
  | true => exact (hal rfl _).2 (.inl hold)
  | false => rw [hf rfl]; exact hold

/-! ## Storages and views -/

theorem Ok.create {w : World V} {A : Nat → Option (Sto V)} {Q : List Nat} {I : List EId} (h : Ok w A Q I)
    (k : Nat) : ∃ A', Ok (w.create fl k) A' Q I ∧ ∀ j x, look A' j x = look A j x := by
  obtain ⟨L, hL⟩ := h.stoOr (fl := fl) k
  refine ⟨_, h.put k hL (h.tabOr_owned (fl := fl) k), ?_⟩
  intro j x
  rw [look_setTab, lookup_tabOr]
  split
  · rename_i hj; rw [hj]
  · rfl

theorem abs_canClone {s : SparseSet V} {a : Sto V} {L} (h : AbsW s a L) (b : Bool) :
    AbsW { s with canClone := b } a L :=
  ⟨SparseSet.abs_canClone h.toAbs b, .cloneFn b h.lives⟩

theorem Ok.registerClone {w : World V} {A : Nat → Option (Sto V)} {Q : List Nat} {I : List EId} (h : Ok w A Q I)
    (k : Nat) : ∃ A', Ok (w.registerClone fl k) A' Q I ∧ ∀ j x, look A' j x = look A j x := by
  obtain ⟨L, hL⟩ := h.stoOr (fl := fl) k
  refine ⟨_, h.put k (abs_canClone hL true) (h.tabOr_owned (fl := fl) k), ?_⟩
  intro j x
  rw [look_setTab, lookup_tabOr]
  split
  · rename_i hj; rw [hj]
  · rfl

theorem Ok.view {w : World V} {A : Nat → Option (Sto V)} {Q : List Nat} {I : List EId} (h : Ok w A Q I)
    {k : Nat} {s s' : SparseSet V} {ev} (hl : lookupK w.stos k = some s) (hs : StoSpec.Step s ev s')
    (hev : WSpec.InsertsNothing ev) : ∃ A', Ok (w.put k s') A' Q I := by
  have hk := h.sto k
  rw [hl] at hk
  generalize hA : A k = ao at hk
  cases hk with
  | some ha =>
    obtain ⟨L', hL'⟩ := ha.call hs (by rintro e v now rfl; exact hev)
    exact ⟨_, h.put k hL' ((step_shrinks hev _).owned (h.owned k _ hA))⟩

theorem Ok.viewAdd {w : World V} {A : Nat → Option (Sto V)} {Q : List Nat} {I : List EId} (h : Ok w A Q I)
    {k : Nat} {s s' : SparseSet V} {e v now r} (hl : lookupK w.stos k = some s) (he : w.ents.isAlive e = true)
    (hs : s.insert e v now = .ok (r, s')) : ∃ A', Ok (w.put k s') A' Q I := by
  have hk := h.sto k
  rw [hl] at hk
  generalize hA : A k = ao at hk
  cases hk with
  | some ha =>
    obtain ⟨r', s'', L', h1, _, h3⟩ := insert_tab ha (h.ent.valid he) (fun r hr => h.rowAt hA he hr) v now
    rw [hs] at h1
    cases h1
    exact ⟨_, h.put k h3 (insTab_owned (h.owned k _ hA) he (fun r hr => h.rowAt hA he hr) v now)⟩

theorem Ok.rehash {w : World V} {A : Nat → Option (Sto V)} {Q : List Nat} {I : List EId} (h : Ok w A Q I)
    {l : List (Nat × SparseSet V)} (hp : w.stos.Perm l) : Ok { w with stos := l } A Q I :=
  ⟨h.ent, (hp.map _).nodup_iff.1 h.nodup, fun k => by
    show StoOK (lookupK l k) (A k)
    rw [lookupK_perm h.nodup hp]; exact h.sto k, h.owned⟩

/-! ## Two worlds -/

/-- Inserting in the other world for an alive entity. -/
theorem Ok.putOpt {o : World V} {B : Nat → Option (Sto V)} {Q : List Nat} {I : List EId} (h : Ok o B Q I)
    {dst : EId} (hd : o.ents.isAlive dst = true) (k nowO : Nat) (c : Option V) :
    ∃ o' B', putOpt fl o k dst nowO c = .ok o' ∧ o'.ents = o.ents ∧ o'.counter = o.counter ∧ Ok o' B' Q I ∧
      ∀ j x, look B' j x = if j = k ∧ x = dst then c.or (look B j x) else look B j x := by
  cases c with
  | none => exact ⟨o, B, rfl, rfl, rfl, h, fun j x => by simp⟩
  | some v =>
    obtain ⟨o', B', h1, h2, h3, h4, h5⟩ := h.addAll (fl := fl) hd nowO [(k, some v)]
    obtain ⟨L, hL⟩ := h.stoOr (fl := fl) k
    have hown : ∀ r, (tabOr fl B k).rows dst.idx = some r → r.gen = dst.gen := by
      intro r hr
      have := alive_same (h.tabOr_owned (fl := fl) k _ r hr) hd rfl
      rw [← this]
    obtain ⟨r, s', L', hi, hr, hs'⟩ := insert_tab hL (h.ent.valid hd) hown v nowO
    simp only [World.addAll, hi, bind, Except.bind, hr, if_true] at h1
    cases h1
    refine ⟨o.put k s', B', ?_, rfl, rfl, h4, ?_⟩
    · simp only [World.putOpt, hi, bind, Except.bind]
    · intro j x
      rw [h5]
      by_cases hx : x = dst
      · subst hx
        simp only [if_true, and_true, WSpec.Listed]
        by_cases hj : j = k
        · subst hj; simp
        · have hj' : ¬ k = j := fun h => hj h.symm
          simp [hj, hj']
      · simp [hx]

/-- The loop of `move_entity` and `move_components`. -/
theorem moveLoop_ok {A : Nat → Option (Sto V)} {src dst : EId} (hsrc : Valid src) (now nowO : Nat)
    (l : List (Nat × SparseSet V)) : ∀ {o : World V} {B : Nat → Option (Sto V)} {Q : List Nat} {I : List EId},
    Ok o B Q I → o.ents.isAlive dst = true → (l.map Prod.fst).Nodup →
    (∀ k s, (k, s) ∈ l → ∃ a L, A k = some a ∧ AbsW s a L) →
    ∃ l' o' B', moveLoop fl src dst now nowO l o = .ok (l', o') ∧ l'.map Prod.fst = l.map Prod.fst ∧
      (∀ k, k ∈ l.map Prod.fst → StoOK (lookupK l' k) ((A k).map (remTab src now))) ∧
      o'.ents = o.ents ∧ o'.counter = o.counter ∧ Ok o' B' Q I ∧
      ∀ j x, look B' j x =
        if j ∈ l.map Prod.fst ∧ x = dst then (look A j src).or (look B j x) else look B j x := by
  induction l with
  | nil =>
    intro o B Q I h _ _ _
    exact ⟨[], o, B, rfl, rfl, (fun k hk => by cases hk), rfl, rfl, h, fun j x => by simp⟩
  | cons y l ih =>
    obtain ⟨k, s⟩ := y
    intro o B Q I h hd hn hall
    obtain ⟨a, L, hA, ha⟩ := hall k s List.mem_cons_self
    obtain ⟨s', L', hr, hs'⟩ := dynRemove_tab ha hsrc now
    have hlk : lookup a.rows src = look A k src := by unfold look; rw [hA]; rfl
    rw [hlk] at hr
    obtain ⟨o1, B1, p1, p2, p3, p4, p5⟩ := h.putOpt (fl := fl) hd k nowO (look A k src)
    simp only [List.map_cons, List.nodup_cons] at hn
    obtain ⟨l', o', B', h1, h2, h3, h4, h5, h6, h7⟩ := ih p4 (by rw [p2]; exact hd) hn.2
      (fun k s hm => hall k s (List.mem_cons_of_mem _ hm))
    refine ⟨(k, s') :: l', o', B', ?_, ?_, ?_, h4.trans p2, h5.trans p3, h6, ?_⟩
    · simp only [World.moveLoop, hr, p1, h1, bind, Except.bind]
    · simp [h2]
    · intro j hj
      by_cases hjk : j = k
      · subst hjk
        simp only [lookupK, if_true, hA]
        exact .some hs'
      · simp only [lookupK, if_neg hjk]
        rcases List.mem_cons.1 hj with hj | hj
        · exact absurd hj hjk
        · exact h3 j hj
    · intro j x
      rw [h7, p5]
      by_cases hx : x = dst
      · simp only [hx, and_true, List.map_cons, List.mem_cons]
        by_cases hjk : j = k
        · subst hjk
          simp only [true_or, if_true]
          rw [if_neg hn.1]
        · simp only [hjk, false_or, if_false]
      · simp [hx]

/-- What both moves do, once both entities are alive where they have to. -/
theorem Ok.moveLoop {w o : World V} {A B : Nat → Option (Sto V)} {Q Q2 : List Nat} {I I2 : List EId}
    (h : Ok w A Q I) (ho : Ok o B Q2 I2) {src dst : EId} (hsrc : w.ents.isAlive src = true)
    (hd : o.ents.isAlive dst = true) (now nowO : Nat) :
    ∃ l' o' B', moveLoop fl src dst now nowO w.stos o = .ok (l', o') ∧
      o'.ents = o.ents ∧ o'.counter = o.counter ∧ Ok o' B' Q2 I2 ∧
      (∀ c, Ok { w with stos := l', counter := c } (fun k => (A k).map (remTab src now)) Q I) ∧
      (∀ k x, look (fun k => (A k).map (remTab src now)) k x = if x = src then none else look A k x) ∧
      ∀ j x, look B' j x = if x = dst then (look A j src).or (look B j x) else look B j x := by
  have hall : ∀ k s, (k, s) ∈ w.stos → ∃ a L, A k = some a ∧ AbsW s a L := by
    intro k s hm
    have hk := h.sto k
    rw [lookupK_of_mem h.nodup hm] at hk
    generalize hA : A k = ao at hk
    cases hk with
    | some ha => exact ⟨_, _, rfl, ha⟩
  obtain ⟨l', o', B', h1, h2, h3, h4, h5, h6, h7⟩ :=
    moveLoop_ok (fl := fl) (A := A) (h.ent.valid hsrc) now nowO w.stos ho hd h.nodup hall
  have hnone : ∀ k, k ∉ w.stos.map Prod.fst → A k = none := by
    intro k hk
    have := h.sto k
    rw [lookupK_none.2 hk] at this
    generalize A k = ao at this
    cases this; rfl
  refine ⟨l', o', B', h1, h4, h5, h6, ?_, ?_, ?_⟩
  · intro c
    refine ⟨h.ent, by rw [h2]; exact h.nodup, ?_, ?_⟩
    · intro k
      by_cases hk : k ∈ w.stos.map Prod.fst
      · exact h3 k hk
      · show StoOK (lookupK l' k) _
        rw [lookupK_none.2 (by rw [h2]; exact hk), hnone k hk]
        exact .none
    · intro k b hb
      cases hA : A k with
      | none => rw [hA] at hb; cases hb
      | some a => rw [hA] at hb; cases hb; exact (remTab_shrinks src now a).owned (h.owned k a hA)
  · intro k x
    rw [look_map A (fun _ => remTab src now)]
    unfold look
    cases hA : A k with
    | none => simp
    | some a => exact lookup_remTab (fun r hr => h.rowAt hA hsrc hr) now x
  · intro j x
    rw [h7]
    by_cases hj : j ∈ w.stos.map Prod.fst
    · simp [hj]
    · have : look A j src = none := by unfold look; rw [hnone j hj]; rfl
      simp [hj, this]

theorem Ok.moveEntity {w o : World V} {A B : Nat → Option (Sto V)} {Q Q2 : List Nat} {I I2 : List EId}
    (h : Ok w A Q I) (ho : Ok o B Q2 I2) {e : EId} (he : w.ents.isAlive e = true)
    (hfree : WSpec.FreeFor o e) {entsO} (hs : o.ents.spawn e = .ok (true, entsO))
    (hcap : entsO.data.length < EId.maxIndex) :
    ∃ w' o' A' B' Q' Q2', w.moveEntity fl o e = .ok (.returned, w', o') ∧
      o'.ents = entsO ∧
      Ok w' A' Q' I ∧ Ok o' B' Q2' (I2 ++ [e]) ∧
      (∀ x, x ≠ e → w'.ents.isAlive x = w.ents.isAlive x) ∧ (e.gen < 65533 → w'.ents.isAlive e = false) ∧
      (∀ x, o'.ents.isAlive x = true ↔ o.ents.isAlive x = true ∨ x = e) ∧
      (∀ k x, look A' k x = if x = e then none else look A k x) ∧
      ∀ k x, look B' k x = if x = e then (look A k e).or (look B k e) else look B k x := by
  have hv := h.ent.valid he
  obtain ⟨s', Q', d1, d2, d3, d4, _, _⟩ := ent_delete h.ent e
  obtain ⟨Q2', s1, s2, _⟩ := ho.spawn hv hfree hs hcap
  have hal := s2 rfl
  obtain ⟨l', o', B', m1, m2, m3, m4, m5, m6, m7⟩ := h.moveLoop (fl := fl) s1.tick (src := e) (dst := e) he
    ((hal e).2 (.inr rfl)) w.counter o.counter
  refine ⟨{ w.tick with ents := s', stos := l' }, o', _, B', Q', Q2', ?_, m2, ?_, m4, d3, d4, ?_, m6, ?_⟩
  · rw [he] at d1
    simp only [World.moveEntity, d1, hs, bind, Except.bind, if_true]
    have : (World.moveLoop fl e e w.counter o.counter w.stos { o.tick with ents := entsO }) = .ok (l', o') := m1
    rw [this]
  · have := m5 w.tick.counter
    refine this.ents d2 ?_
    intro k b i r hb hr
    have hold := this.owned k b hb i r hr
    by_cases hx : (⟨i, r.gen⟩ : EId) = e
    · exfalso
      have h8 := m6 k ⟨i, r.gen⟩
      rw [if_pos hx] at h8
      have h9 : look (fun k => (A k).map (remTab e w.counter)) k ⟨i, r.gen⟩ = some r.val := by
        show ((A k).map (remTab e w.counter)).bind _ = _
        rw [hb]
        simp [lookup, hr]
      rw [h9] at h8
      cases h8
    · rw [d3 _ hx]; exact hold
  · intro x; rw [m2]; exact hal x
  · intro k x
    rw [m7]
    split
    · rename_i hx; rw [hx]
    · rfl

theorem Ok.moveComponents {w o : World V} {A B : Nat → Option (Sto V)} {Q Q2 : List Nat} {I I2 : List EId}
    (h : Ok w A Q I) (ho : Ok o B Q2 I2) {src dst : EId} (hsrc : w.ents.isAlive src = true)
    (hd : o.ents.isAlive dst = true) :
    ∃ w' o' A' B', w.moveComponents fl o src dst = .ok (.returned, w', o') ∧
      w'.ents = w.ents ∧ o'.ents = o.ents ∧ Ok w' A' Q I ∧ Ok o' B' Q2 I2 ∧
      (∀ k x, look A' k x = if x = src then none else look A k x) ∧
      ∀ k x, look B' k x = if x = dst then (look A k src).or (look B k dst) else look B k x := by
  obtain ⟨l', o', B', m1, m2, m3, m4, m5, m6, m7⟩ := h.moveLoop (fl := fl) ho.tick (src := src) (dst := dst) hsrc
    hd w.counter o.counter
  refine ⟨{ w.tick with stos := l' }, o', _, B', ?_, rfl, m2, m5 w.tick.counter, m4, m6, ?_⟩
  · simp only [World.moveComponents, hsrc, hd, if_true, m1, bind, Except.bind]
  · intro k x
    rw [m7]
    split
    · rename_i hx; rw [hx]
    · rfl

/-- The clone of the component of `src`, if its storage can be cloned. -/
def cloned (cl : Nat → V → V) (w : World V) (A : Nat → Option (Sto V)) (k : Nat) (src : EId) : Option V :=
  match lookupK w.stos k with
  | some s => if s.canClone then (look A k src).map (cl k) else none
  | none => none

theorem cloneCompLoop_ok {A : Nat → Option (Sto V)} {src dst : EId} (hsrc : Valid src) (cl : Nat → V → V)
    (nowO : Nat) (l : List (Nat × SparseSet V)) :
    ∀ {o : World V} {B : Nat → Option (Sto V)} {Q : List Nat} {I : List EId},
    Ok o B Q I → o.ents.isAlive dst = true → (l.map Prod.fst).Nodup →
    (∀ k s, (k, s) ∈ l → ∃ a L, A k = some a ∧ AbsW s a L) →
    ∃ o' B', cloneCompLoop fl cl src dst nowO l o = .ok o' ∧
      o'.ents = o.ents ∧ o'.counter = o.counter ∧ Ok o' B' Q I ∧
      ∀ j x, look B' j x = if x = dst then
          (match lookupK l j with
            | some s => if s.canClone then (look A j src).map (cl j) else none
            | none => none).or (look B j x)
        else look B j x := by
  induction l with
  | nil =>
    intro o B Q I h _ _ _
    exact ⟨o, B, rfl, rfl, rfl, h, fun j x => by simp [lookupK]⟩
  | cons y l ih =>
    obtain ⟨k, s⟩ := y
    intro o B Q I h hd hn hall
    obtain ⟨a, L, hA, ha⟩ := hall k s List.mem_cons_self
    have hlk : lookup a.rows src = look A k src := by unfold look; rw [hA]; rfl
    have hc : cloneOf cl src k s = .ok (if s.canClone then (look A k src).map (cl k) else none) := by
      unfold cloneOf
      rw [ha.get hsrc.1, hlk]
      split <;> rfl
    obtain ⟨o1, B1, p1, p2, p3, p4, p5⟩ := h.putOpt (fl := fl) hd k nowO
      (if s.canClone then (look A k src).map (cl k) else none)
    simp only [List.map_cons, List.nodup_cons] at hn
    obtain ⟨o', B', h1, h4, h5, h6, h7⟩ := ih p4 (by rw [p2]; exact hd) hn.2
      (fun k s hm => hall k s (List.mem_cons_of_mem _ hm))
    refine ⟨o', B', ?_, h4.trans p2, h5.trans p3, h6, ?_⟩
    · simp only [World.cloneCompLoop, hc, p1, bind, Except.bind]; exact h1
    · intro j x
      rw [h7, p5]
      by_cases hx : x = dst
      · simp only [hx, and_true, if_true]
        by_cases hjk : j = k
        · subst hjk
          have : lookupK l j = none := lookupK_none.2 hn.1
          simp [lookupK, this]
        · simp [lookupK, hjk]
      · simp [hx]

theorem Ok.cloneCompLoop {w o : World V} {A B : Nat → Option (Sto V)} {Q Q2 : List Nat} {I I2 : List EId}
    (h : Ok w A Q I) (ho : Ok o B Q2 I2) {src dst : EId} (hsrc : w.ents.isAlive src = true)
    (hd : o.ents.isAlive dst = true) (cl : Nat → V → V) (nowO : Nat) :
    ∃ o' B', cloneCompLoop fl cl src dst nowO w.stos o = .ok o' ∧
      o'.ents = o.ents ∧ Ok o' B' Q2 I2 ∧
      ∀ k x, look B' k x = if x = dst then (cloned cl w A k src).or (look B k x) else look B k x := by
  have hall : ∀ k s, (k, s) ∈ w.stos → ∃ a L, A k = some a ∧ AbsW s a L := by
    intro k s hm
    have hk := h.sto k
    rw [lookupK_of_mem h.nodup hm] at hk
    generalize hA : A k = ao at hk
    cases hk with
    | some ha => exact ⟨_, _, rfl, ha⟩
  obtain ⟨o', B', h1, h4, h5, h6, h7⟩ :=
    cloneCompLoop_ok (fl := fl) (A := A) (h.ent.valid hsrc) cl nowO w.stos ho hd h.nodup hall
  exact ⟨o', B', h1, h4, h6, h7⟩

theorem Ok.cloneEntityTo {w o : World V} {A B : Nat → Option (Sto V)} {Q Q2 : List Nat} {I I2 : List EId}
    (h : Ok w A Q I) (ho : Ok o B Q2 I2) {e : EId} (he : w.ents.isAlive e = true) (cl : Nat → V → V)
    (hfree : WSpec.FreeFor o e) {entsO} (hs : o.ents.spawn e = .ok (true, entsO))
    (hcap : entsO.data.length < EId.maxIndex) :
    ∃ o' B' Q2', w.cloneEntityTo fl cl o e = .ok (.returned, o') ∧ o'.ents = entsO ∧ Ok o' B' Q2' (I2 ++ [e]) ∧
      (∀ x, o'.ents.isAlive x = true ↔ o.ents.isAlive x = true ∨ x = e) ∧
      ∀ k x, look B' k x = if x = e then (cloned cl w A k e).or (look B k e) else look B k x := by
  have hv := h.ent.valid he
  obtain ⟨Q2', s1, s2, _⟩ := ho.spawn hv hfree hs hcap
  have hal := s2 rfl
  obtain ⟨o', B', m1, m2, m4, m7⟩ := h.cloneCompLoop (fl := fl) s1.tick (src := e) (dst := e) he
    ((hal e).2 (.inr rfl)) cl o.counter
  refine ⟨o', B', Q2', ?_, m2, m4, ?_, ?_⟩
  · simp only [World.cloneEntityTo, he, hs, bind, Except.bind, if_true]
    have : (World.cloneCompLoop fl cl e e o.counter w.stos { o.tick with ents := entsO }) = .ok o' := m1
    rw [this]
  · intro x; rw [m2]; exact hal x
  · intro k x
    rw [m7]
    split
    · rename_i hx; rw [hx]
    · rfl

theorem Ok.cloneComponentsTo {w o : World V} {A B : Nat → Option (Sto V)} {Q Q2 : List Nat} {I I2 : List EId}
    (h : Ok w A Q I) (ho : Ok o B Q2 I2) {src dst : EId} (hsrc : w.ents.isAlive src = true)
    (hd : o.ents.isAlive dst = true) (cl : Nat → V → V) :
    ∃ o' B', w.cloneComponentsTo fl cl o src dst = .ok (.returned, o') ∧ o'.ents = o.ents ∧ Ok o' B' Q2 I2 ∧
      ∀ k x, look B' k x = if x = dst then (cloned cl w A k src).or (look B k dst) else look B k x := by
  obtain ⟨o', B', m1, m2, m4, m7⟩ := h.cloneCompLoop (fl := fl) ho.tick (src := src) (dst := dst) hsrc
    hd cl o.counter
  refine ⟨o', B', ?_, m2, m4, ?_⟩
  · simp only [World.cloneComponentsTo, hsrc, hd, if_true, m1, bind, Except.bind]
  · intro k x
    rw [m7]
    split
    · rename_i hx; rw [hx]
    · rfl

end Verif.World
