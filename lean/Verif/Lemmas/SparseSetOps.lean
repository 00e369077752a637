import Verif.Lemmas.SparseSet

/-! # Lemmas: insertion and removal on the cells of a storage -/
namespace Verif.SparseSet
open EId (BUCKET_SIZE)
open SparseArray (WFA look has)
variable {T : Type}

/-- An id that may own a component. -/
def EOK (e : EId) : Prop := e.gen < 65535 ∧ e.idx < EId.INDEX_MASK

@[simp] theorem build_trkIns (s : SparseSet T) (sp) (L : List (Cell T)) : (build s sp L).trkIns = s.trkIns := rfl
@[simp] theorem build_trkMod (s : SparseSet T) (sp) (L : List (Cell T)) : (build s sp L).trkMod = s.trkMod := rfl
@[simp] theorem build_trkDel (s : SparseSet T) (sp) (L : List (Cell T)) : (build s sp L).trkDel = s.trkDel := rfl
@[simp] theorem build_trkRem (s : SparseSet T) (sp) (L : List (Cell T)) : (build s sp L).trkRem = s.trkRem := rfl
@[simp] theorem build_sparse (s : SparseSet T) (sp) (L : List (Cell T)) : (build s sp L).sparse = sp := rfl
@[simp] theorem build_dense (s : SparseSet T) (sp) (L : List (Cell T)) :
    (build s sp L).dense = L.map (·.id) := rfl
@[simp] theorem build_data (s : SparseSet T) (sp) (L : List (Cell T)) :
    (build s sp L).data = L.map (·.val) := rfl

@[simp] theorem callIns_trkIns (s : SparseSet T) (e v) : (s.callIns e v).trkIns = s.trkIns := by
  unfold callIns; split <;> rfl
@[simp] theorem callIns_trkMod (s : SparseSet T) (e v) : (s.callIns e v).trkMod = s.trkMod := by
  unfold callIns; split <;> rfl
@[simp] theorem callRem_trkIns (s : SparseSet T) (e v) : (s.callRem e v).trkIns = s.trkIns := by
  unfold callRem; split <;> rfl
@[simp] theorem callRem_trkMod (s : SparseSet T) (e v) : (s.callRem e v).trkMod = s.trkMod := by
  unfold callRem; split <;> rfl
@[simp] theorem callRem_trkDel (s : SparseSet T) (e v) : (s.callRem e v).trkDel = s.trkDel := by
  unfold callRem; split <;> rfl
@[simp] theorem callRem_trkRem (s : SparseSet T) (e v) : (s.callRem e v).trkRem = s.trkRem := by
  unfold callRem; split <;> rfl

theorem callIns_build (s : SparseSet T) (sp) (L : List (Cell T)) (e v) :
    (build s sp L).callIns e v = build (s.callIns e v) sp L := by
  unfold callIns build; cases h : s.hookIns <;> simp [h]

theorem callRem_build (s : SparseSet T) (sp) (L : List (Cell T)) (e v) :
    (build s sp L).callRem e v = build (s.callRem e v) sp L := by
  unfold callRem build; cases h : s.hookRem <;> simp [h]

theorem setSparse_build (s : SparseSet T) (sp sp') (L : List (Cell T)) :
    { build s sp L with sparse := sp' } = build s sp' L := rfl

/-- The effect of an insertion on the cells: result, cells and whether the callback is called. -/
inductive InsEff (s : SparseSet T) (L : List (Cell T)) (e : EId) (v : T) (now : Nat) :
    InsertionResult T → Bool → List (Cell T) → Prop where
  | new : (∀ c ∈ L, c.id.idx ≠ e.idx) →
      InsEff s L e v now .inserted true
        (L ++ [⟨e, e.gen, v, if s.trkIns then now else 0, 0⟩])
  | override {i c} : L[i]? = some c → c.id.idx = e.idx → c.gen = e.gen →
      InsEff s L e v now (.componentOverride c.val) true
        (L.set i { c with
          id := ⟨c.id.idx, c.id.gen ||| e.gen⟩, val := v, mod := if s.trkMod then now else c.mod })
  | newer {i c} : L[i]? = some c → c.id.idx = e.idx → c.gen < e.gen →
      InsEff s L e v now .otherComponentOverride true
        (L.set i { c with
          id := ⟨c.id.idx, c.id.gen ||| e.gen⟩, gen := e.gen, val := v
          ins := if s.trkIns then now else c.ins })
  | older {c} : c ∈ L → c.id.idx = e.idx → e.gen < c.gen →
      InsEff s L e v now .notInserted false L

theorem or_lt {a b : Nat} (ha : a < 65536) (hb : b < 65536) : a ||| b < 65536 := by
  have : a ||| b < 2 ^ 16 := Nat.or_lt_two_pow (by omega) (by omega)
  omega

theorem copyIndexGen_eq {d e : EId} (h : d.idx = e.idx) :
    d.copyIndexGen e = ⟨d.idx, d.gen ||| e.gen⟩ := by
  unfold EId.copyIndexGen
  rw [h, Nat.or_self]; rfl

theorem vecGetU_map {α β} {L : List α} {i : Nat} {c : α} (f : α → β) (h : L[i]? = some c) :
    vecGetU (L.map f) i = .ok (f c) := by
  unfold vecGetU; rw [List.getElem?_map, h]; rfl

theorem vecSetU_map {α β} {L : List α} {i : Nat} {c : α} (f : α → β) (h : L[i]? = some c) (d : α)
    {y : β} (hy : y = f d) : vecSetU (L.map f) i y = .ok ((L.set i d).map f) := by
  unfold vecSetU
  rw [if_pos (by simpa using getElem?_lt h), hy, List.map_set]

theorem vecSetC_map {α β} {L : List α} {i : Nat} {c : α} (f : α → β) (h : L[i]? = some c) (d : α)
    {y : β} (hy : y = f d) : vecSetC (L.map f) i y = .ok ((L.set i d).map f) := by
  unfold vecSetC
  rw [if_pos (by simpa using getElem?_lt h), hy, List.map_set]

theorem set_self {α} {L : List α} {i : Nat} {c : α} (h : L[i]? = some c) : L.set i c = L := by
  apply List.ext_getElem?
  intro k
  by_cases hk : i = k
  · subst hk; rw [List.getElem?_set_self (getElem?_lt h), h]
  · rw [List.getElem?_set_ne hk]

theorem map_set_same {α β} {L : List α} {i : Nat} {c d : α} (f : α → β) (h : L[i]? = some c)
    (hf : f d = f c) : (L.set i d).map f = L.map f := by
  rw [List.map_set, hf, set_self]
  rw [List.getElem?_map, h]; rfl

theorem insert_ok {s : SparseSet T} {sp : SparseArray} {L : List (Cell T)} (h : SOK sp L) {e : EId}
    (he : EOK e) (v : T) (now : Nat) :
    ∃ r hook sp' L', (build s sp L).insert e v now =
        .ok (r, build (if hook then s.callIns e v else s) sp' L') ∧ SOK sp' L' ∧
      InsEff s L e v now r hook L' := by
  have hd : e.isDead = false := by unfold EId.isDead; simp; have := he.1; omega
  obtain ⟨sp1, ha, hw1, hl1, hh1⟩ := SparseArray.allocateAt_look h.wfa hd
  have hok1 : SOK sp1 L :=
    ⟨hw1, fun i c hi => by rw [hl1]; exact h.hit i c hi, fun j hj => by rw [hl1]; exact h.miss j hj,
      h.cells⟩
  have hpage : has sp1 (e.idx / BUCKET_SIZE) := (hh1 _).2 (.inr rfl)
  have hget := SparseArray.getU_look hw1 hpage
  unfold insert
  simp only [build_sparse, ha, hget, bind, Except.bind, setSparse_build]
  rcases hok1.cases e.idx with ⟨hne, hl⟩ | ⟨i, c, hi, hce, hl⟩
  · have hdead : (look sp1 e.idx).isDead = true := by unfold EId.isDead; rw [hl]; rfl
    rw [if_pos hdead]
    have hlen : L.length < EId.INDEX_MASK := hok1.length_lt he.2 hne
    have hfp : EId.fromParts L.length e.gen = .ok ⟨L.length, e.gen⟩ := by
      unfold EId.fromParts; rw [if_pos hlen]
    simp only [callIns_build, build_dense, List.length_map, hfp, build_sparse]
    obtain ⟨sp2, hs2, hw2, hl2, _⟩ := SparseArray.setU_look hw1 hpage ⟨L.length, e.gen⟩
    simp only [hs2]
    refine ⟨.inserted, true, sp2, L ++ [⟨e, e.gen, v, if s.trkIns then now else 0, 0⟩], ?_, ?_,
      .new hne⟩
    · simp only [if_true]
      unfold build
      simp only [callIns_trkIns, callIns_trkMod]
      cases s.trkIns <;> cases s.trkMod <;> simp
    · exact hok1.push (d := ⟨e, e.gen, v, if s.trkIns then now else 0, 0⟩) hne hw2 hl2
        ⟨he.1, Nat.le_refl _, by show e.gen < 65536; have := he.1; omega, he.2⟩
  · have hcell := hok1.cells c (List.mem_of_getElem? hi)
    have hdead : (look sp1 e.idx).isDead = false := by
      unfold EId.isDead; rw [hl]; simp; omega
    rw [hl] at hdead ⊢
    rw [if_neg (by rw [hdead]; decide)]
    simp only
    by_cases heq : e.gen = c.gen
    · rw [if_pos heq]
      obtain ⟨sp2, hs2, hw2, hl2, _⟩ :=
        SparseArray.setU_look hw1 hpage (EId.copyGen ⟨i, c.gen⟩ e)
      let d : Cell T := { c with
        id := ⟨c.id.idx, c.id.gen ||| e.gen⟩, val := v, mod := if s.trkMod then now else c.mod }
      refine ⟨.componentOverride c.val, true, sp2, L.set i d, ?_, ?_, .override hi hce heq.symm⟩
      · simp only [callIns_build, build_data, build_dense, build_sparse, build_trkMod, callIns_trkMod]
        rw [vecGetU_map (fun x => x.val) hi]
        simp only
        rw [vecSetU_map (fun x => x.val) hi d rfl]
        simp only [hs2]
        rw [vecGetU_map (fun x => x.id) hi]
        simp only
        rw [vecSetU_map (fun x => x.id) hi d (copyIndexGen_eq hce)]
        have hm : setUIf s.trkMod (build (s.callIns e v) sp1 L).modificationData i now =
            .ok (if s.trkMod then (L.set i d).map (·.mod) else []) := by
          unfold setUIf build
          cases hm : s.trkMod
          · simp [hm]
          · simp only [if_true, callIns_trkMod, hm]
            exact vecSetU_map (y := now) (fun x => x.mod) hi d (by simp [d, hm])
        simp only [hm, if_true]
        unfold build
        simp only [callIns_trkIns, callIns_trkMod]
        rw [map_set_same (fun x => x.ins) hi (d := d) rfl]
      · refine hok1.replace hi rfl hw2 ?_ ⟨hcell.1, ?_, ?_⟩
        · intro j
          rw [hl2, hce]
          congr 1
          unfold EId.copyGen; simp [d, heq]
        · exact Nat.le_trans hcell.2.1 Nat.left_le_or
        · exact or_lt hcell.2.2.1 (by have := he.1; omega)
    · rw [if_neg heq]
      by_cases hgt : e.gen > c.gen
      · rw [if_pos hgt]
        obtain ⟨sp2, hs2, hw2, hl2, _⟩ :=
          SparseArray.setU_look hw1 hpage (EId.copyGen ⟨i, c.gen⟩ e)
        let d : Cell T := { c with
          id := ⟨c.id.idx, c.id.gen ||| e.gen⟩, gen := e.gen, val := v
          ins := if s.trkIns then now else c.ins }
        refine ⟨.otherComponentOverride, true, sp2, L.set i d, ?_, ?_, .newer hi hce hgt⟩
        · simp only [callIns_build, build_data, build_dense, build_sparse, build_trkIns, callIns_trkIns]
          rw [vecSetU_map (fun x => x.val) hi d rfl]
          simp only [hs2]
          rw [vecGetU_map (fun x => x.id) hi]
          simp only
          rw [vecSetU_map (fun x => x.id) hi d (copyIndexGen_eq hce)]
          have hm : setUIf s.trkIns (build (s.callIns e v) sp1 L).insertionData i now =
              .ok (if s.trkIns then (L.set i d).map (·.ins) else []) := by
            unfold setUIf build
            cases hm : s.trkIns
            · simp [hm]
            · simp only [if_true, callIns_trkIns, hm]
              exact vecSetU_map (y := now) (fun x => x.ins) hi d (by simp [d, hm])
          simp only [hm, if_true]
          unfold build
          simp only [callIns_trkIns, callIns_trkMod]
          rw [map_set_same (fun x => x.mod) hi (d := d) rfl]
        · refine hok1.replace hi rfl hw2 ?_ ⟨he.1, ?_, ?_⟩
          · intro j
            rw [hl2, hce]
            rfl
          · exact Nat.right_le_or
          · exact or_lt hcell.2.2.1 (by have := he.1; omega)
      · rw [if_neg hgt]
        exact ⟨.notInserted, false, sp1, L, rfl, hok1,
          .older (List.mem_of_getElem? hi) hce (by omega)⟩

/-! ## Removal -/

/-- The cells after `swap_remove(i)`. -/
def swapDel (L : List (Cell T)) (i : Nat) : List (Cell T) :=
  match L.getLast? with
  | some z => (L.set i z).dropLast
  | none => L

theorem swapRemove_map {α β} {L : List α} {i : Nat} {c z : α} (f : α → β) (h : L[i]? = some c)
    (hz : L.getLast? = some z) :
    swapRemove (L.map f) i = .ok (f c, ((L.set i z).dropLast).map f) := by
  unfold swapRemove
  rw [List.getElem?_map, h, List.getLast?_map, hz]
  simp only [Option.map_some]
  rw [List.map_dropLast, List.map_set]

theorem getLast_of_lt {α} {L : List α} {i : Nat} {c : α} (h : L[i]? = some c) :
    ∃ z, L.getLast? = some z ∧ L[L.length - 1]? = some z := by
  have := getElem?_lt h
  rw [List.getLast?_eq_getElem?]
  exact ⟨_, List.getElem?_eq_getElem (by omega), List.getElem?_eq_getElem (by omega)⟩

theorem swapDel_get {L : List (Cell T)} {i : Nat} {c : Cell T} (h : L[i]? = some c) (k : Nat) :
    (swapDel L i)[k]? =
      if k + 1 < L.length then (if k = i then L[L.length - 1]? else L[k]?) else none := by
  obtain ⟨z, hz, hz'⟩ := getLast_of_lt h
  unfold swapDel
  rw [hz]
  simp only
  rw [List.getElem?_dropLast]
  simp only [List.length_set]
  by_cases hk : k + 1 < L.length
  · rw [if_pos (by omega), if_pos hk]
    by_cases hki : k = i
    · subst hki
      rw [if_pos rfl, List.getElem?_set_self (by omega), hz']
    · rw [if_neg hki, List.getElem?_set_ne (fun h => hki h.symm)]
  · rw [if_neg (by omega), if_neg hk]

theorem swapDel_length {L : List (Cell T)} {i : Nat} {c : Cell T} (h : L[i]? = some c) :
    (swapDel L i).length = L.length - 1 := by
  obtain ⟨z, hz, hz'⟩ := getLast_of_lt h
  unfold swapDel; rw [hz]; simp

theorem swapDel_mem {sp : SparseArray} {L : List (Cell T)} (hok : SOK sp L) {i : Nat} {c : Cell T}
    (h : L[i]? = some c) (x : Cell T) : x ∈ swapDel L i ↔ x ∈ L ∧ x.id.idx ≠ c.id.idx := by
  have hlt := getElem?_lt h
  constructor
  · intro hx
    obtain ⟨k, hk⟩ := List.mem_iff_getElem?.1 hx
    rw [swapDel_get h] at hk
    split at hk
    · split at hk
      · rename_i h1 h2
        refine ⟨List.mem_of_getElem? hk, fun he => ?_⟩
        have := (hok.inj hk h he).1
        omega
      · rename_i h1 h2
        refine ⟨List.mem_of_getElem? hk, fun he => ?_⟩
        exact h2 (hok.inj hk h he).1
    · cases hk
  · rintro ⟨hx, hne⟩
    obtain ⟨k, hk⟩ := List.mem_iff_getElem?.1 hx
    have hkl := getElem?_lt hk
    have hki : k ≠ i := by rintro rfl; rw [h] at hk; cases hk; exact hne rfl
    by_cases hlast : k + 1 < L.length
    · exact List.mem_of_getElem? (i := k) (by rw [swapDel_get h, if_pos hlast, if_neg hki]; exact hk)
    · have : k = L.length - 1 := by omega
      exact List.mem_of_getElem? (i := i)
        (by rw [swapDel_get h, if_pos (by omega), if_pos rfl, ← this]; exact hk)

theorem SOK.swapDel {sp sp' : SparseArray} {L : List (Cell T)} (h : SOK sp L) {i : Nat} {c : Cell T}
    (hi : L[i]? = some c) (hw : WFA sp')
    (hl : ∀ j, look sp' j =
      if j = c.id.idx then EId.dead
      else if (SparseSet.swapDel L i)[i]?.map (·.id.idx) = some j then ⟨i, (look sp j).gen⟩
      else look sp j) : SOK sp' (SparseSet.swapDel L i) where
  wfa := hw
  hit := by
    intro k x hx
    have hxm := (swapDel_mem h hi x).1 (List.mem_of_getElem? hx)
    rw [hl, if_neg hxm.2]
    have hx' := hx
    rw [swapDel_get hi] at hx'
    split at hx'
    · split at hx'
      · rename_i h1 h2
        subst h2
        rw [hx]
        simp only [Option.map_some, if_true]
        rw [h.hit _ _ hx']
      · rename_i h1 h2
        rw [if_neg, h.hit _ _ hx']
        intro hh
        cases hy : (SparseSet.swapDel L i)[i]? with
        | none => rw [hy] at hh; cases hh
        | some y =>
          rw [hy] at hh
          simp only [Option.map_some, Option.some.injEq] at hh
          rw [swapDel_get hi] at hy
          split at hy
          · rw [if_pos rfl] at hy
            have := (h.inj hy hx' hh).1
            omega
          · cases hy
    · cases hx'
  miss := by
    intro j hj
    rw [hl]
    split
    · rfl
    · rename_i hne
      have hno : ∀ x ∈ L, x.id.idx ≠ j := fun x hx he =>
        hj x ((swapDel_mem h hi x).2 ⟨hx, by rw [he]; exact hne⟩) he
      rw [if_neg]
      · exact h.miss j hno
      · intro hh
        cases hy : (SparseSet.swapDel L i)[i]? with
        | none => rw [hy] at hh; cases hh
        | some y =>
          rw [hy] at hh
          simp only [Option.map_some, Option.some.injEq] at hh
          exact hj y (List.mem_of_getElem? hy) hh
  cells := fun x hx => h.cells x ((swapDel_mem h hi x).1 hx).1

/-- The effect of a removal on the cells: returned component and cells. -/
inductive RemEff (L : List (Cell T)) (e : EId) : Option T → List (Cell T) → Prop where
  | absent : (∀ c ∈ L, ¬ (c.id.idx = e.idx ∧ c.gen ≤ e.gen)) → RemEff L e none L
  | found {i c} : L[i]? = some c → c.id.idx = e.idx → c.gen = e.gen →
      RemEff L e (some c.val) (swapDel L i)
  | stale {i c} : L[i]? = some c → c.id.idx = e.idx → c.gen < e.gen → RemEff L e none (swapDel L i)

/-- `e` may be any id except those of generation 65535 whose slot is empty and allocated. -/
theorem actualRemove_ok {s : SparseSet T} {sp : SparseArray} {L : List (Cell T)} (h : SOK sp L)
    {e : EId} (he : e.gen < 65535 ∨ ∃ c ∈ L, c.id.idx = e.idx) :
    ∃ r sp' L', (build s sp L).actualRemove e =
        .ok (r, build (match r with | some v => s.callRem e v | none => s) sp' L') ∧ SOK sp' L' ∧
      RemEff L e r L' := by
  unfold actualRemove
  simp only [build_sparse]
  rcases h.cases e.idx with ⟨hne, hl⟩ | ⟨i, c, hi, hce, hl⟩
  · have heg : e.gen < 65535 := by
      rcases he with he | ⟨c, hc, he⟩
      · exact he
      · exact absurd he (hne c hc)
    have heff : RemEff L e none L := .absent (fun c hc hh => hne c hc hh.1)
    rcases SparseArray.get_look h.wfa e with h1 | ⟨h1, _⟩
    · simp only [h1, bind, Except.bind]
      rw [if_neg (by omega)]
      exact ⟨none, sp, L, rfl, h, heff⟩
    · simp only [h1, bind, Except.bind]
      exact ⟨none, sp, L, rfl, h, heff⟩
  · have hcell := h.cells c (List.mem_of_getElem? hi)
    have hpage : has sp (e.idx / BUCKET_SIZE) := hce ▸ h.page (List.mem_of_getElem? hi)
    have h1 : sp.get e = .ok (some ⟨i, c.gen⟩) := by
      rcases SparseArray.get_look h.wfa e with h1 | ⟨_, h2⟩
      · rw [h1, hl]
      · rw [hl] at h2
        injection h2 with _ h3
        omega
    simp only [h1, bind, Except.bind]
    by_cases hge : e.gen ≥ c.gen
    · rw [if_pos hge]
      obtain ⟨sp1, hs1, hw1, hl1, hh1⟩ := SparseArray.setU_look h.wfa hpage EId.dead
      obtain ⟨z, hz, hz'⟩ := getLast_of_lt hi
      have hSD : swapDel L i = (L.set i z).dropLast := by unfold swapDel; rw [hz]
      simp only [hs1, build_dense, build_data, build_trkIns, build_trkMod]
      simp only [swapRemove_map _ hi hz, ← hSD]
      have hins : swapRemoveIf s.trkIns (build s sp L).insertionData i =
          .ok (if s.trkIns then (swapDel L i).map (·.ins) else []) := by
        unfold swapRemoveIf build
        cases s.trkIns
        · simp
        · simp only [if_true, swapRemove_map (fun x => x.ins) hi hz, ← hSD]; rfl
      have hmod : swapRemoveIf s.trkMod (build s sp L).modificationData i =
          .ok (if s.trkMod then (swapDel L i).map (·.mod) else []) := by
        unfold swapRemoveIf build
        cases s.trkMod
        · simp
        · simp only [if_true, swapRemove_map (fun x => x.mod) hi hz, ← hSD]; rfl
      simp only [hins, hmod]
      have hsp : ∃ sp2, relink sp1 ((swapDel L i).map (·.id)) ⟨i, c.gen⟩ = .ok sp2 ∧
          SOK sp2 (swapDel L i) := by
        unfold relink
        simp only [bind, Except.bind]
        by_cases hlt : i < ((swapDel L i).map (·.id)).length
        · rw [if_pos hlt]
          obtain ⟨y, hy⟩ : ∃ y, (swapDel L i)[i]? = some y :=
            ⟨_, List.getElem?_eq_getElem (by simpa using hlt)⟩
          rw [vecGetU_map (fun x => x.id) hy]
          have hym := (swapDel_mem h hi y).1 (List.mem_of_getElem? hy)
          have hyp : has sp1 (y.id.idx / BUCKET_SIZE) := (hh1 _).2 (h.page hym.1)
          simp only [SparseArray.getU_look hw1 hyp]
          obtain ⟨sp2, hs2, hw2, hl2, _⟩ := SparseArray.setU_look hw1 hyp
            ((look sp1 y.id.idx).copyIndex ⟨i, c.gen⟩)
          refine ⟨sp2, hs2, h.swapDel hi hw2 ?_⟩
          intro j
          rw [hl2, hl1, hl1, hy, ← hce]
          simp only [Option.map_some, Option.some.injEq]
          by_cases h1 : j = y.id.idx
          · subst h1
            simp only [if_true]
            rw [if_neg hym.2, if_neg hym.2]; rfl
          · have h2 : ¬ y.id.idx = j := fun hh => h1 hh.symm
            simp only [h1, h2, if_false]
        · rw [if_neg hlt]
          refine ⟨sp1, rfl, h.swapDel hi hw1 ?_⟩
          intro j
          have : (swapDel L i)[i]? = none := List.getElem?_eq_none (by simpa using hlt)
          rw [this, hl1, hce]
          simp
      obtain ⟨sp2, hsp2, hok2⟩ := hsp
      rw [hsp2]
      simp only
      by_cases heq : e.gen = c.gen
      · rw [if_pos heq]
        refine ⟨some c.val, sp2, swapDel L i, ?_, hok2, .found hi hce heq.symm⟩
        rw [← callRem_build]; rfl
      · rw [if_neg heq]
        exact ⟨none, sp2, swapDel L i, rfl, hok2, .stale hi hce (by omega)⟩
    · rw [if_neg hge]
      refine ⟨none, sp, L, rfl, h, .absent ?_⟩
      rintro d hd ⟨h2, h3⟩
      obtain ⟨k, hk⟩ := List.mem_iff_getElem?.1 hd
      have := (h.inj hi hk (by rw [hce, h2])).2
      subst this; omega

end Verif.SparseSet
