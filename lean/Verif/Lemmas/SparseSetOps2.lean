import Verif.Lemmas.SparseSetOps

/-! # Lemmas: writes, clearing, draining, sorting, retaining and bulk insertion -/
namespace Verif.SparseSet
open EId (BUCKET_SIZE)
open SparseArray (WFA look has)
variable {T : Type}

/-- Writing a cell that exists leaves the sparse array right. -/
theorem SOK.write {sp : SparseArray} {L : List (Cell T)} (h : SOK sp L) {i : Nat} {c d : Cell T}
    (hi : L[i]? = some c) (hid : d.id = c.id) (hg : d.gen = c.gen) : SOK sp (L.set i d) := by
  have hc := h.cells c (List.mem_of_getElem? hi)
  refine h.replace hi (by rw [hid]) h.wfa ?_ ⟨by rw [hg]; exact hc.1, by rw [hg, hid]; exact hc.2.1,
    by rw [hid]; exact hc.2.2.1⟩
  intro j
  split
  · rename_i hj; rw [hj, h.hit i c hi, hg]
  · rfl

/-- The cell after a write through `Mut`. -/
def Cell.write (trk : Bool) (now : Nat) (c : Cell T) (v : T) : Cell T :=
  { c with val := v, mod := if trk then now else c.mod }

/-- The cell after a possible write. -/
def Cell.writeOpt (trk : Bool) (now : Nat) (c : Cell T) : Option T → Cell T
  | some v => c.write trk now v
  | none => c

theorem modData (s : SparseSet T) (sp) (L : List (Cell T)) :
    (build s sp L).modificationData = if s.trkMod then L.map (·.mod) else [] := rfl

theorem build_write (s : SparseSet T) (sp) (L : List (Cell T)) {i : Nat} {c : Cell T}
    (hi : L[i]? = some c) (now : Nat) (v : T) :
    { build s sp L with
      data := (L.set i (c.write s.trkMod now v)).map (·.val)
      modificationData := if s.trkMod then (L.set i (c.write s.trkMod now v)).map (·.mod) else [] } =
    build s sp (L.set i (c.write s.trkMod now v)) := by
  unfold build
  simp only
  rw [map_set_same (fun x => x.id) hi (d := c.write s.trkMod now v) rfl,
    map_set_same (fun x => x.ins) hi (d := c.write s.trkMod now v) rfl]

theorem setUIf_mod (s : SparseSet T) (sp) (L : List (Cell T)) {i : Nat} {c : Cell T}
    (hi : L[i]? = some c) (now : Nat) (v : T) :
    setUIf s.trkMod (build s sp L).modificationData i now =
      .ok (if s.trkMod then (L.set i (c.write s.trkMod now v)).map (·.mod) else []) := by
  unfold setUIf
  rw [modData]
  cases hm : s.trkMod
  · simp
  · simp only [if_true]
    exact vecSetU_map (y := now) (fun x => x.mod) hi (c.write true now v) (by simp [Cell.write])

theorem setCIf_mod (s : SparseSet T) (L : List (Cell T)) {i : Nat} {c : Cell T}
    (hi : L[i]? = some c) (now : Nat) (v : T) :
    setCIf s.trkMod (if s.trkMod then L.map (·.mod) else []) i now =
      .ok (if s.trkMod then (L.set i (c.write s.trkMod now v)).map (·.mod) else []) := by
  unfold setCIf
  cases hm : s.trkMod
  · simp
  · simp only [if_true]
    exact vecSetC_map (y := now) (fun x => x.mod) hi (c.write true now v) (by simp [Cell.write])

theorem modify_ok {s : SparseSet T} {sp : SparseArray} {L : List (Cell T)} (h : SOK sp L) {e : EId}
    (he : e.gen < 65535) (now : Nat) (g : T → T) :
    ((∀ c ∈ L, ¬ (c.id.idx = e.idx ∧ c.gen = e.gen)) ∧
      (build s sp L).modify e now g = .ok (false, build s sp L)) ∨
    (∃ (i : Nat) (c : Cell T), L[i]? = some c ∧ c.id.idx = e.idx ∧ c.gen = e.gen ∧
      (build s sp L).modify e now g =
        .ok (true, build s sp (L.set i (c.write s.trkMod now (g c.val)))) ∧
      SOK sp (L.set i (c.write s.trkMod now (g c.val)))) := by
  unfold modify
  rcases indexOf_ok (s := s) h e he with ⟨h1, h2⟩ | ⟨i, c, hi, hce, hcg, h2⟩
  · left
    refine ⟨h1, ?_⟩
    simp only [h2, bind, Except.bind]
  · right
    refine ⟨i, c, hi, hce, hcg, ?_, h.write hi rfl rfl⟩
    simp only [h2, bind, Except.bind, build_trkMod, build_data]
    rw [setUIf_mod s sp L hi now (g c.val)]
    simp only
    rw [vecGetU_map (fun x => x.val) hi]
    simp only
    rw [vecSetU_map (y := g c.val) (fun x => x.val) hi (c.write s.trkMod now (g c.val)) rfl]
    simp only
    exact congrArg (fun z => Except.ok (true, z)) (build_write s sp L hi now (g c.val))

/-- `apply` on the cells. -/
theorem apply_ok {R : Type} {s : SparseSet T} {sp : SparseArray} {L : List (Cell T)} (h : SOK sp L)
    {i j : Nat} {a b : Cell T} (hi : L[i]? = some a) (hj : L[j]? = some b) (hij : i ≠ j) {x y : EId}
    (hx : (build s sp L).indexOf x = .ok (some i)) (hy : (build s sp L).indexOf y = .ok (some j))
    (f : T → T → T × R) (now : Nat) :
    (build s sp L).apply x y f now =
      .ok ((f a.val b.val).2, build s sp (L.set i (a.write s.trkMod now (f a.val b.val).1))) ∧
    SOK sp (L.set i (a.write s.trkMod now (f a.val b.val).1)) := by
  refine ⟨?_, h.write hi rfl rfl⟩
  unfold apply
  simp only [hx, hy, bind, Except.bind, build_trkMod, build_data]
  rw [if_pos hij, modData, setCIf_mod s L hi now (f a.val b.val).1]
  simp only
  rw [vecGetU_map (fun x => x.val) hi]
  simp only
  rw [vecGetU_map (fun x => x.val) hj]
  simp only
  rw [vecSetU_map (y := (f a.val b.val).1) (fun x => x.val) hi (a.write s.trkMod now (f a.val b.val).1) rfl]
  simp only
  exact congrArg (fun z => Except.ok ((f a.val b.val).2, z)) (build_write s sp L hi now (f a.val b.val).1)

theorem applyMut_ok {R : Type} {s : SparseSet T} {sp : SparseArray} {L : List (Cell T)} (h : SOK sp L)
    {i j : Nat} {a b : Cell T} (hi : L[i]? = some a) (hj : L[j]? = some b) (hij : i ≠ j) {x y : EId}
    (hx : (build s sp L).indexOf x = .ok (some i)) (hy : (build s sp L).indexOf y = .ok (some j))
    (f : T → T → T × T × R) (now : Nat) :
    (build s sp L).applyMut x y f now =
      .ok ((f a.val b.val).2.2,
        build s sp ((L.set i (a.write s.trkMod now (f a.val b.val).1)).set j
          (b.write s.trkMod now (f a.val b.val).2.1))) ∧
    SOK sp ((L.set i (a.write s.trkMod now (f a.val b.val).1)).set j
          (b.write s.trkMod now (f a.val b.val).2.1)) := by
  have h1 : SOK sp (L.set i (a.write s.trkMod now (f a.val b.val).1)) := h.write hi rfl rfl
  have hj1 : (L.set i (a.write s.trkMod now (f a.val b.val).1))[j]? = some b := by
    rw [List.getElem?_set_ne hij]; exact hj
  refine ⟨?_, h1.write hj1 rfl rfl⟩
  unfold applyMut
  simp only [hx, hy, bind, Except.bind, build_trkMod, build_data]
  rw [if_pos hij, modData, setCIf_mod s L hi now (f a.val b.val).1]
  simp only
  rw [setCIf_mod s _ hj1 now (f a.val b.val).2.1]
  simp only
  rw [vecGetU_map (fun x => x.val) hi]
  simp only
  rw [vecGetU_map (fun x => x.val) hj]
  simp only
  rw [vecSetU_map (y := (f a.val b.val).1) (fun x => x.val) hi (a.write s.trkMod now (f a.val b.val).1) rfl]
  simp only
  rw [vecSetU_map (y := (f a.val b.val).2.1) (fun x => x.val) hj1 (b.write s.trkMod now (f a.val b.val).2.1) rfl]
  simp only
  rw [← build_write s sp _ hj1 now (f a.val b.val).2.1]
  unfold build
  simp only
  rw [map_set_same (fun x => x.id) hi (d := a.write s.trkMod now (f a.val b.val).1) rfl,
    map_set_same (fun x => x.ins) hi (d := a.write s.trkMod now (f a.val b.val).1) rfl]

/-! ## Clearing and draining -/

theorem killAll_ok : ∀ (es : List EId) (sp : SparseArray), WFA sp →
    (∀ e ∈ es, has sp (e.idx / BUCKET_SIZE)) →
    ∃ sp', killAll sp es = .ok sp' ∧ WFA sp' ∧
      (∀ j, look sp' j = if ∃ e ∈ es, e.idx = j then EId.dead else look sp j) ∧
      (∀ b, has sp' b ↔ has sp b) := by
  intro es
  induction es with
  | nil => intro sp hw _; exact ⟨sp, rfl, hw, by simp, fun _ => Iff.rfl⟩
  | cons e es ih =>
    intro sp hw hp
    obtain ⟨sp1, h1, h2, h3, h4⟩ := SparseArray.setU_look hw (hp e (by simp)) EId.dead
    obtain ⟨sp2, g1, g2, g3, g4⟩ := ih sp1 h2 (fun x hx => (h4 _).2 (hp x (by simp [hx])))
    refine ⟨sp2, ?_, g2, ?_, fun b => (g4 b).trans (h4 b)⟩
    · unfold killAll; simp only [h1, bind, Except.bind, g1]
    · intro j
      rw [g3, h3]
      by_cases hj : ∃ e ∈ es, e.idx = j
      · rw [if_pos hj, if_pos]
        obtain ⟨x, hx, he⟩ := hj
        exact ⟨x, by simp [hx], he⟩
      · rw [if_neg hj]
        by_cases hje : j = e.idx
        · rw [if_pos hje, if_pos ⟨e, by simp, hje.symm⟩]
        · rw [if_neg hje, if_neg]
          rintro ⟨x, hx, he⟩
          rcases List.mem_cons.1 hx with rfl | hx
          · exact hje he.symm
          · exact hj ⟨x, hx, he⟩

theorem killAll_sok {sp : SparseArray} {L : List (Cell T)} (h : SOK sp L) :
    ∃ sp', killAll sp (L.map (·.id)) = .ok sp' ∧ SOK (T := T) sp' [] := by
  obtain ⟨sp', h1, h2, h3, _⟩ := killAll_ok (L.map (·.id)) sp h.wfa (by
    intro e he
    obtain ⟨c, hc, rfl⟩ := List.mem_map.1 he
    exact h.page hc)
  refine ⟨sp', h1, h2, by intro i c hi; simp at hi, ?_, by intro c hc; cases hc⟩
  intro j _
  rw [h3]
  split
  · rfl
  · rename_i hn
    refine h.miss j ?_
    intro c hc he
    exact hn ⟨c.id, List.mem_map.2 ⟨c, hc, rfl⟩, he⟩

theorem zip_map {α β γ} (L : List α) (f : α → β) (g : α → γ) :
    (L.map f).zip (L.map g) = L.map (fun c => (f c, g c)) := by
  induction L with
  | nil => rfl
  | cons a L ih => simp [ih]

theorem clear_ok {s : SparseSet T} {sp : SparseArray} {L : List (Cell T)} (h : SOK sp L) (now : Nat) :
    ∃ sp', (build s sp L).clear now =
      .ok (build { s with deletionData := if s.trkDel then
          s.deletionData ++ L.map (fun c => (c.id, now, c.val)) else s.deletionData } sp' []) ∧
      SOK (T := T) sp' [] := by
  obtain ⟨sp', h1, h2⟩ := killAll_sok h
  refine ⟨sp', ?_, h2⟩
  unfold clear
  simp only [build_sparse, build_dense, build_data, build_trkDel, h1, bind, Except.bind, zip_map]
  unfold build
  cases s.trkIns <;> cases s.trkMod <;> simp [Function.comp_def]

theorem drain_ok {s : SparseSet T} {sp : SparseArray} {L : List (Cell T)} (h : SOK sp L) (now : Nat) :
    ∃ sp', (build s sp L).drain now =
      .ok ({ ids := L.map (·.id), denseLen := L.length, data := L.map (·.val) },
        build { s with removalData := if s.trkRem then
          s.removalData ++ L.map (fun c => (c.id, now)) else s.removalData } sp' []) ∧
      SOK (T := T) sp' [] := by
  obtain ⟨sp', h1, h2⟩ := killAll_sok h
  refine ⟨sp', ?_, h2⟩
  unfold drain
  simp only [build_sparse, build_dense, build_data, build_trkRem, h1, bind, Except.bind]
  unfold build
  cases s.trkIns <;> cases s.trkMod <;> simp [Function.comp_def]

/-! ## Retaining -/

@[simp] theorem ite_trkIns (s : SparseSet T) (c : Prop) [Decidable c] (d : List (EId × Nat × T)) :
    (if c then { s with deletionData := d } else s).trkIns = s.trkIns := by split <;> rfl
@[simp] theorem ite_trkMod (s : SparseSet T) (c : Prop) [Decidable c] (d : List (EId × Nat × T)) :
    (if c then { s with deletionData := d } else s).trkMod = s.trkMod := by split <;> rfl

/-- Callback and log of a successful deletion. -/
def noteDel (s : SparseSet T) (now : Nat) (e : EId) (v : T) : SparseSet T :=
  let s := s.callRem e v
  if s.trkDel then { s with deletionData := s.deletionData ++ [(e, now, v)] } else s

@[simp] theorem noteDel_trkIns (s : SparseSet T) (now e v) : (s.noteDel now e v).trkIns = s.trkIns := by
  unfold noteDel; simp only; split <;> simp
@[simp] theorem noteDel_trkMod (s : SparseSet T) (now e v) : (s.noteDel now e v).trkMod = s.trkMod := by
  unfold noteDel; simp only; split <;> simp

theorem dynDelete_ok {s : SparseSet T} {sp : SparseArray} {L : List (Cell T)} (h : SOK sp L)
    {e : EId} (he : e.gen < 65535 ∨ ∃ c ∈ L, c.id.idx = e.idx) (now : Nat) :
    ∃ r sp' L', (build s sp L).dynDelete e now =
        .ok (r.isSome, build (match r with | some v => s.noteDel now e v | none => s) sp' L') ∧
      SOK sp' L' ∧ RemEff L e r L' := by
  obtain ⟨r, sp', L', h1, h2, h3⟩ := actualRemove_ok (s := s) h he
  refine ⟨r, sp', L', ?_, h2, h3⟩
  unfold dynDelete
  simp only [h1, bind, Except.bind]
  cases r with
  | none => rfl
  | some v =>
    simp only [build_trkDel, Option.isSome_some]
    congr 2
    unfold noteDel
    simp only
    have hb : ∀ (b : Bool) (t : SparseSet T) (d : List (EId × Nat × T)),
        (if b then { build t sp' L' with deletionData := d } else build t sp' L') =
        build (if b then { t with deletionData := d } else t) sp' L' := by
      intro b t d; cases b <;> rfl
    exact hb _ _ _

theorem dynRemove_ok {s : SparseSet T} {sp : SparseArray} {L : List (Cell T)} (h : SOK sp L)
    {e : EId} (he : e.gen < 65535 ∨ ∃ c ∈ L, c.id.idx = e.idx) (now : Nat) :
    ∃ r sp' L', (build s sp L).dynRemove e now =
        .ok (r, build (match r with
          | some v => if s.trkRem then
              { s.callRem e v with removalData := s.removalData ++ [(e, now)] } else s.callRem e v
          | none => s) sp' L') ∧
      SOK sp' L' ∧ RemEff L e r L' := by
  obtain ⟨r, sp', L', h1, h2, h3⟩ := actualRemove_ok (s := s) h he
  refine ⟨r, sp', L', ?_, h2, h3⟩
  unfold dynRemove
  simp only [h1, bind, Except.bind]
  cases r with
  | none => rfl
  | some v =>
    have hrd : (s.callRem e v).removalData = s.removalData := by unfold callRem; split <;> rfl
    have hrd' : (build (s.callRem e v) sp' L').removalData = s.removalData := by
      unfold build; exact hrd
    simp only [build_trkRem, Option.isSome_some, Bool.true_and, callRem_trkRem, hrd']
    cases s.trkRem <;> rfl

/-- Deleting the row at `i` by its own dense id always removes it; it is reported only when the dense
id has the right generation. -/
theorem deleteRow_ok {s : SparseSet T} {sp : SparseArray} {L : List (Cell T)} (h : SOK sp L) {i : Nat}
    {c : Cell T} (hi : L[i]? = some c) (now : Nat) :
    ∃ sp', (build s sp L).dynDelete c.id now =
        .ok (decide (c.gen = c.id.gen),
          build (if c.gen = c.id.gen then s.noteDel now c.id c.val else s) sp' (swapDel L i)) ∧
      SOK sp' (swapDel L i) := by
  have hm := List.mem_of_getElem? hi
  obtain ⟨r, sp', L', h1, h2, h3⟩ := dynDelete_ok (s := s) h (.inr ⟨c, hm, rfl⟩) now
  have hle := (h.cells c hm).2.1
  cases h3 with
  | absent hn => exact absurd ⟨rfl, hle⟩ (hn c hm)
  | found hj he hg =>
    obtain ⟨rfl, rfl⟩ := h.inj hi hj he.symm
    refine ⟨sp', ?_, h2⟩
    rw [h1]; simp [hg]
  | stale hj he hg =>
    obtain ⟨rfl, rfl⟩ := h.inj hi hj he.symm
    refine ⟨sp', ?_, h2⟩
    have : ¬ c.gen = c.id.gen := by omega
    rw [h1]; simp [this]

/-- Visiting cells with the closure of `retain_mut`: the state and, for each cell, the cell after the
closure's write and whether it is kept. -/
def visit {σ : Type} (f : σ → EId → T → Option T × Bool × σ) (trk : Bool) (now : Nat) :
    σ → List (Cell T) → σ × List (Cell T × Bool)
  | st, [] => (st, [])
  | st, c :: cs =>
    let r := f st c.id c.val
    let c' := c.writeOpt trk now r.1
    let rest := visit f trk now r.2.2 cs
    (rest.1, (c', r.2.1) :: rest.2)

def kept (l : List (Cell T × Bool)) : List (Cell T) := l.filterMap fun x => if x.2 then some x.1 else none
def dropped (l : List (Cell T × Bool)) : List (Cell T) :=
  l.filterMap fun x => if x.2 then none else some x.1

/-- Callbacks and logs for a list of deleted rows. -/
def noteDels (s : SparseSet T) (now : Nat) (cs : List (Cell T)) : SparseSet T :=
  cs.foldl (fun s c => if c.gen = c.id.gen then s.noteDel now c.id c.val else s) s

theorem noteDels_trkIns (s : SparseSet T) (now cs) : (s.noteDels now cs).trkIns = s.trkIns := by
  unfold noteDels
  induction cs generalizing s with
  | nil => rfl
  | cons c cs ih => rw [List.foldl_cons, ih]; split <;> simp

theorem noteDels_trkMod (s : SparseSet T) (now cs) : (s.noteDels now cs).trkMod = s.trkMod := by
  unfold noteDels
  induction cs generalizing s with
  | nil => rfl
  | cons c cs ih => rw [List.foldl_cons, ih]; split <;> simp

theorem writeOpt_ok {s : SparseSet T} {sp : SparseArray} {L : List (Cell T)} (h : SOK sp L) {i : Nat}
    {c : Cell T} (hi : L[i]? = some c) (now : Nat) (w : Option T) :
    (build s sp L).writeOpt i now w = .ok (build s sp (L.set i (c.writeOpt s.trkMod now w))) ∧
    SOK sp (L.set i (c.writeOpt s.trkMod now w)) := by
  cases w with
  | none => simp only [Cell.writeOpt, set_self hi]; exact ⟨rfl, h⟩
  | some v =>
    simp only [Cell.writeOpt]
    refine ⟨?_, h.write hi rfl rfl⟩
    unfold writeOpt writeRow
    simp only [build_data, bind, Except.bind]
    rw [vecGetU_map (fun x => x.val) hi]
    simp only
    rw [vecSetU_map (y := v) (fun x => x.val) hi (c.write s.trkMod now v) rfl]
    simp only
    rw [← build_write s sp L hi now v, modData]
    cases hm : s.trkMod
    · simp [hm]
    · simp only [if_true]
      rw [← hm, List.map_set]
      simp [Cell.write, hm]

theorem drop_swapDel {L : List (Cell T)} {i : Nat} {c : Cell T} (hi : L[i]? = some c) :
    ((swapDel L i).drop i).Perm (L.drop (i + 1)) ∧ (swapDel L i).take i = L.take i := by
  have hlt := getElem?_lt hi
  obtain ⟨z, hz, hz'⟩ := getLast_of_lt hi
  have hlen := swapDel_length hi
  constructor
  · rcases Nat.lt_or_ge (i + 1) L.length with hl | hl
    · -- drop i of the result = z :: (drop (i+1) L).dropLast
      have : (swapDel L i).drop i = z :: (L.drop (i + 1)).dropLast := by
        apply List.ext_getElem?
        intro k
        rw [List.getElem?_drop, swapDel_get hi]
        cases k with
        | zero =>
          simp only [Nat.add_zero, if_true, List.getElem?_cons_zero]
          rw [if_pos hl, hz']
        | succ k =>
          rw [List.getElem?_cons_succ, List.getElem?_dropLast, List.length_drop, List.getElem?_drop]
          by_cases h1 : i + (k + 1) + 1 < L.length
          · rw [if_pos h1, if_neg (by omega), if_pos (by omega)]; congr 1; omega
          · rw [if_neg h1, if_neg (by omega)]
      rw [this]
      have hlast : (L.drop (i + 1)).getLast? = some z := by
        rw [List.getLast?_drop, if_neg (by omega)]; exact hz
      have hne : L.drop (i + 1) ≠ [] := by
        intro h; rw [h] at hlast; cases hlast
      have hcat : L.drop (i + 1) = (L.drop (i + 1)).dropLast ++ [z] := by
        rw [List.getLast?_eq_some_getLast hne] at hlast
        cases hlast
        exact (List.dropLast_concat_getLast hne).symm
      conv => rhs; rw [hcat]
      exact (List.perm_append_singleton _ _).symm
    · have h1 : (swapDel L i).drop i = [] := List.drop_eq_nil_of_le (by omega)
      have h2 : L.drop (i + 1) = [] := List.drop_eq_nil_of_le (by omega)
      rw [h1, h2]
  · apply List.ext_getElem?
    intro k
    rw [List.getElem?_take, List.getElem?_take]
    split
    · rw [swapDel_get hi, if_pos (by omega), if_neg (by omega)]
    · rfl

theorem retainMutLoop_ok {σ : Type} (f : σ → EId → T → Option T × Bool × σ) (now : Nat) :
    ∀ (n : Nat) (s : SparseSet T) (sp : SparseArray) (L : List (Cell T)) (st : σ) (pos : Nat),
      SOK sp L → pos + n = L.length →
      ∃ sp' L' order, order.Perm (L.drop pos) ∧
        retainMutLoop f now (build s sp L) st pos n =
          .ok ((visit f s.trkMod now st order).1,
            build (s.noteDels now (dropped (visit f s.trkMod now st order).2)) sp' L') ∧
        SOK sp' L' ∧
        L'.Perm (L.take pos ++ kept (visit f s.trkMod now st order).2) := by
  intro n
  induction n with
  | zero =>
    intro s sp L st pos h hn
    refine ⟨sp, L, [], ?_, rfl, h, ?_⟩
    · rw [List.drop_eq_nil_of_le (by omega)]
    · rw [List.take_of_length_le (by omega)]; simp [visit, kept]
  | succ n ih =>
    intro s sp L st pos h hn
    obtain ⟨c, hc⟩ : ∃ c, L[pos]? = some c := ⟨_, List.getElem?_eq_getElem (by omega)⟩
    unfold retainMutLoop
    simp only [build_dense, build_data, bind, Except.bind]
    rw [vecGetU_map (fun x => x.id) hc]
    simp only
    rw [vecGetU_map (fun x => x.val) hc]
    simp only
    generalize hf : f st c.id c.val = r
    obtain ⟨w, keep, st1⟩ := r
    simp only
    obtain ⟨hw, hsok⟩ := writeOpt_ok (s := s) h hc now w
    rw [hw]
    simp only
    generalize hd : c.writeOpt s.trkMod now w = d at hsok ⊢
    have hdid : d.id = c.id := by subst hd; cases w <;> rfl
    have hdgen : d.gen = c.gen := by subst hd; cases w <;> rfl
    have hvis : ∀ order, visit f s.trkMod now st (c :: order) =
        ((visit f s.trkMod now st1 order).1, (d, keep) :: (visit f s.trkMod now st1 order).2) := by
      intro order
      show ((visit f s.trkMod now (f st c.id c.val).2.2 order).1,
        (c.writeOpt s.trkMod now (f st c.id c.val).1, (f st c.id c.val).2.1) ::
          (visit f s.trkMod now (f st c.id c.val).2.2 order).2) = _
      rw [hf]
      simp only [hd]
    have hdrop : L.drop pos = c :: L.drop (pos + 1) := by
      rw [List.drop_eq_getElem_cons (by omega)]
      rw [List.getElem?_eq_getElem (by omega)] at hc
      injection hc with hc
      rw [hc]
    have hd1 : (L.set pos d).drop (pos + 1) = L.drop (pos + 1) := by
      rw [List.drop_set_of_lt (by omega)]
    have htake : (L.set pos d).take pos = L.take pos := by
      rw [List.take_set_of_le (Nat.le_refl _)]
    have hdpos : (L.set pos d)[pos]? = some d := List.getElem?_set_self (by omega)
    cases keep with
    | true =>
      simp only [if_true]
      obtain ⟨sp', L', order, h1, h2, h3, h4⟩ := ih s sp (L.set pos d) st1 (pos + 1) hsok (by simp; omega)
      rw [hd1] at h1
      refine ⟨sp', L', c :: order, ?_, ?_, h3, ?_⟩
      · rw [hdrop]; exact h1.cons c
      · rw [hvis, h2]; simp [dropped]
      · rw [hvis]
        have : (L.set pos d).take (pos + 1) = L.take pos ++ [d] := by
          rw [List.take_add_one, htake, hdpos]; rfl
        rw [this] at h4
        simpa [kept] using h4
    | false =>
      simp only [Bool.false_eq_true, if_false]
      obtain ⟨sp1, hdel, hsok1⟩ := deleteRow_ok (s := s) hsok hdpos now
      rw [hdid, hdgen] at hdel
      rw [hdel]
      simp only
      obtain ⟨hp, ht⟩ := drop_swapDel hdpos
      have hs1 : (if c.gen = c.id.gen then s.noteDel now c.id d.val else s).trkMod = s.trkMod := by
        split <;> simp
      obtain ⟨sp', L', order, h1, h2, h3, h4⟩ := ih _ sp1 _ st1 pos hsok1 (by
        rw [swapDel_length hdpos]; simp; omega)
      rw [hs1] at h2 h4
      refine ⟨sp', L', c :: order, ?_, ?_, h3, ?_⟩
      · rw [hdrop]
        refine List.Perm.cons c (h1.trans (hp.trans ?_))
        rw [hd1]
      · rw [hvis, h2]
        simp only [dropped, List.filterMap_cons, Bool.false_eq_true, if_false]
        congr 2
        unfold noteDels
        rw [List.foldl_cons, hdid, hdgen]
      · rw [hvis]
        rw [ht, htake] at h4
        simpa [kept] using h4

theorem retain_eq_retainMut {σ : Type} (f : σ → EId → T → Bool × σ) (now : Nat) (s : SparseSet T)
    (st : σ) : s.retain now st f =
      s.retainMut now st (fun st e c => (none, (f st e c).1, (f st e c).2)) := by
  unfold retain retainMut
  generalize s.dense.length = n
  generalize 0 = pos
  induction n generalizing s st pos with
  | zero => rfl
  | succ n ih =>
    unfold retainLoop retainMutLoop
    simp only [bind, Except.bind, writeOpt]
    cases vecGetU s.dense pos with
    | error => rfl
    | ok e =>
      simp only
      cases vecGetU s.data pos with
      | error => rfl
      | ok c =>
        simp only
        cases (f st e c).1 with
        | true => simp only [if_true]; exact ih s _ (pos + 1)
        | false =>
          simp only [Bool.false_eq_true, if_false]
          cases s.dynDelete e now with
          | error => rfl
          | ok r => exact ih _ _ _

end Verif.SparseSet
