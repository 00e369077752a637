import Verif.Lemmas.Entities

/-! `spawn` and `clear` under the free-list invariant. -/
namespace Verif.Entities

/-- The generation stored in slot `i`. -/
def genAt (s : Entities) (i : Nat) : Option Nat := (s.data[i]?).map (·.gen)

/-- Liveness read off the invariant: the slot is not recyclable and holds the id's generation. -/
theorem Inv.isAlive_iff_genAt {s : Entities} {Q : List Nat} (h : Inv s Q) (e : EId) :
    s.isAlive e = true ↔ e.idx ∉ Q ∧ s.genAt e.idx = some e.gen := by
  constructor
  · intro ha
    refine ⟨h.alive_not_mem ha, ?_⟩
    rw [Inv.isAlive_iff] at ha
    unfold genAt; rw [ha]; rfl
  · rintro ⟨hq, hg⟩
    unfold genAt at hg
    rcases ho : s.data[e.idx]? with _ | o
    · rw [ho] at hg; cases hg
    · rw [ho] at hg
      have := h.own _ _ ho hq
      rw [Inv.isAlive_iff, ho]
      cases o; cases e; simp_all

/-- Distinct numbers below `n` are at most `n`. -/
theorem nodup_length_le : ∀ (n : Nat) (Q : List Nat), Q.Nodup → (∀ q ∈ Q, q < n) → Q.length ≤ n := by
  intro n
  induction n with
  | zero =>
    intro Q _ h
    cases Q with
    | nil => simp
    | cons a Q => exact absurd (h a List.mem_cons_self) (Nat.not_lt_zero _)
  | succ n ih =>
    intro Q hn h
    have h1 := ih (Q.erase n) (hn.erase _) (by
      intro q hq
      have := hn.mem_erase_iff.1 hq
      have := h q this.2
      omega)
    have h2 := List.length_erase (a := n) (l := Q)
    split at h2 <;> omega

/-! ### the walk of `spawn` -/

theorem walk_spec {d : List EId} {x new : Nat} : ∀ (P : List Nat) (c : Nat) (R : List Nat) (t fuel : Nat),
    Seg d (P ++ c :: x :: R) t → (P ++ c :: x :: R).Nodup →
    (x :: R).getLast? = some new → P.length < fuel →
    walk d x new fuel ((P ++ [c]).headD 0) = .ok c := by
  intro P
  induction P with
  | nil =>
    intro c R t fuel hs hn hl hf
    cases fuel with
    | zero => omega
    | succ fuel =>
      obtain ⟨g, hg⟩ := hs.1
      simp only [List.nil_append, List.headD_cons] at hg ⊢
      unfold walk getC
      rw [hg]; simp [bind, Except.bind]
  | cons p P ih =>
    intro c R t fuel hs hn hl hf
    cases fuel with
    | zero => omega
    | succ fuel =>
      rw [List.cons_append] at hs
      obtain ⟨⟨g, hg⟩, hs'⟩ := hs
      simp only [List.cons_append, List.headD_cons]
      have hn' := hn
      rw [List.cons_append, List.nodup_cons] at hn'
      have hnext : (P ++ c :: x :: R).headD t = (P ++ [c]).headD 0 := by cases P <;> simp
      -- the next slot is in `P ++ [c]`, hence neither `x` nor `new`
      have hmem : (P ++ [c]).headD 0 ∈ P ++ [c] := by cases P <;> simp
      have hdisj : ∀ y ∈ P ++ [c], y ∉ x :: R := by
        have : (P ++ [c] ++ (x :: R)).Nodup := by simpa using hn'.2
        rw [List.nodup_append] at this
        intro y hy hy'
        exact this.2.2 y hy y hy' rfl
      have h1 : (P ++ [c]).headD 0 ≠ x := by
        intro e; apply hdisj _ hmem; rw [e]; simp
      have h2 : (P ++ [c]).headD 0 ≠ new := by
        intro e; apply hdisj _ hmem; rw [e]; exact List.mem_of_getLast? hl
      rw [hnext] at hg
      unfold walk getC
      rw [hg]
      simp only [bind, Except.bind, h1, h2, ne_eq, not_false_eq_true, and_self, if_true]
      exact ih c R t fuel hs' hn'.2 hl (by simp at hf; omega)

/-- Removing an element that is not the head of a list. -/
theorem split_of_mem_tail {o x : Nat} {Q : List Nat} (h : x ∈ o :: Q) (hne : x ≠ o) :
    ∃ P c R, o :: Q = P ++ c :: x :: R ∧ (P ++ [c]).headD 0 = o := by
  have hx : x ∈ Q := by
    rcases List.mem_cons.1 h with h | h
    · exact absurd h hne
    · exact h
  obtain ⟨A, B, rfl⟩ := List.append_of_mem hx
  rcases List.eq_nil_or_concat (o :: A) with h' | ⟨P, c, h'⟩
  · cases h'
  · rw [List.concat_eq_append] at h'
    refine ⟨P, c, B, ?_, ?_⟩
    · rw [← List.cons_append, h']; simp
    · rw [← h']; rfl

theorem erase_split {P R : List Nat} {c x : Nat} (hn : (P ++ c :: x :: R).Nodup) :
    (P ++ c :: x :: R).erase x = P ++ c :: R := by
  have hP : x ∉ P := by
    rw [List.nodup_append] at hn
    intro hx; exact hn.2.2 x hx x (by simp) rfl
  have hc : c ≠ x := by
    rw [List.nodup_append] at hn
    have := hn.2.1; rw [List.nodup_cons] at this
    rintro rfl; exact this.1 (by simp)
  rw [List.erase_append_right _ hP, List.erase_cons_tail (by simpa using hc), List.erase_cons_head]

/-! ### spawn in an existing slot -/

/-- Changing a slot to hold its own index removes it from the free list. -/
theorem set_own_inv {s : Entities} {Q Q' : List Nat} {e : EId} {l : Option (Nat × Nat)}
    (h : Inv s Q) (hl : l = listOf Q') (hn : Q'.Nodup) (hg : e.gen < 65536) {d : List EId}
    (hlen : d.length = s.data.length)
    (hc : Seg d Q' EId.maxIndex) (he : e.idx ∉ Q') (hsub : ∀ i, i ∉ Q' → i ≠ e.idx → i ∉ Q)
    (hd : ∀ i, i ∉ Q' → i ≠ e.idx → d[i]? = s.data[i]?)
    (hgens : ∀ (i : Nat), (d[i]?).map (·.gen) = s.genAt i) :
    Inv { s with data := d.set e.idx e, list := l } Q' := by
  refine ⟨hl, hn, ?_, ?_, by simpa [hlen] using h.cap, ?_⟩
  · refine Seg.frame ?_ hc
    intro q hq
    exact List.getElem?_set_ne (by rintro rfl; exact he hq)
  · intro i x hx hi
    simp only at hx
    by_cases hie : i = e.idx
    · subst hie
      have hlt := lt_of_getElem?_some hx
      rw [List.getElem?_set_self (by simpa using hlt)] at hx
      cases hx; rfl
    · rw [List.getElem?_set_ne (Ne.symm hie), hd i hi hie] at hx
      exact h.own i x hx (hsub i hi hie)
  · intro i x hx
    simp only at hx
    by_cases hie : i = e.idx
    · subst hie
      have hlt := lt_of_getElem?_some hx
      rw [List.getElem?_set_self (by simpa using hlt)] at hx
      cases hx; exact hg
    · rw [List.getElem?_set_ne (Ne.symm hie)] at hx
      have := hgens i
      rw [hx] at this
      unfold genAt at this
      rcases ho : s.data[i]? with _ | o
      · rw [ho] at this; cases this
      · rw [ho] at this; have h2 := h.gens i o ho; simp at this; omega

theorem spawn_alive {s : Entities} {e o : EId} (ho : s.data[e.idx]? = some o)
    (ha : s.isAlive o = true) :
    spawn s e = if o.gen ≤ e.gen then .ok (true, { s with data := s.data.set e.idx e })
      else .ok (false, s) := by
  unfold spawn; rw [ho]; simp only [ha, if_true]

theorem spawn_dead_refused {s : Entities} {e o : EId} (ho : s.data[e.idx]? = some o)
    (ha : s.isAlive o = false) (hg : e.gen < 65535) (hgen : ¬ o.gen ≤ e.gen + 1) :
    spawn s e = .ok (false, s) := by
  unfold spawn; rw [ho]
  simp only [ha, Bool.false_eq_true, if_false]
  split
  · rw [if_neg (by omega), if_neg hgen]
  · rfl

/-- What a successful `spawn` leaves behind, in terms of generations and recyclable slots. -/
structure Spawned (s s' : Entities) (Q Q' : List Nat) (e : EId) : Prop where
  inv : Inv s' Q'
  at_ : s'.genAt e.idx = some e.gen
  old : ∀ i, i < s.data.length → i ≠ e.idx → s'.genAt i = s.genAt i
  gap : ∀ i, s.data.length ≤ i → i < e.idx → s'.genAt i = some 0
  len : s'.data.length = max s.data.length (e.idx + 1)
  queue : Q' = Q.erase e.idx ++ List.range' s.data.length (e.idx - s.data.length)
  hook : s'.hook = s.hook
  log : s'.log = s.log

theorem genAt_none {s : Entities} {i : Nat} (h : s.data.length ≤ i) : s.genAt i = none := by
  unfold genAt; rw [List.getElem?_eq_none h]; rfl

theorem spawned_existing {s : Entities} {Q Q' : List Nat} {e : EId} {l : Option (Nat × Nat)}
    {d : List EId} (hlt : e.idx < s.data.length) (hlen : d.length = s.data.length)
    (hinv : Inv { s with data := d.set e.idx e, list := l } Q')
    (hgens : ∀ (i : Nat), (d[i]?).map (·.gen) = s.genAt i)
    (hq : Q' = Q.erase e.idx) :
    Spawned s { s with data := d.set e.idx e, list := l } Q Q' e where
  inv := hinv
  at_ := by
    unfold genAt; simp only
    rw [List.getElem?_set_self (by omega)]; rfl
  old := by
    intro i _ hi
    have := hgens i
    unfold genAt; simp only
    rw [List.getElem?_set_ne (Ne.symm hi), this]; rfl
  gap := by intro i h1 h2; omega
  len := by simp only [List.length_set, hlen]; omega
  queue := by
    have : e.idx - s.data.length = 0 := by omega
    rw [this]; simp [hq]
  hook := rfl
  log := rfl

theorem set_idx_gens {d : List EId} {i v g : Nat} (h : (d[i]?).map (·.gen) = some g) (j : Nat) :
    ((d.set i ⟨v, g⟩)[j]?).map (·.gen) = (d[j]?).map (·.gen) := by
  by_cases hij : i = j
  · subst hij
    have hlt : i < d.length := by
      rcases ho : d[i]? with _ | o
      · rw [ho] at h; cases h
      · exact lt_of_getElem?_some ho
    rw [List.getElem?_set_self hlt, h]; rfl
  · rw [List.getElem?_set_ne hij]

theorem spawn_dead {s : Entities} {Q : List Nat} (h : Inv s Q) {e o : EId}
    (ho : s.data[e.idx]? = some o) (ha : s.isAlive o = false) (hg : e.gen < 65535)
    (hgen : o.gen ≤ e.gen + 1) :
    ∃ s', spawn s e = .ok (true, s') ∧ Spawned s s' Q (Q.erase e.idx) e := by
  have hmem : e.idx ∈ Q := (h.mem_iff_dead ho).2 ha
  have hlt := lt_of_getElem?_some ho
  have hcap := h.cap
  have hmask := maxIndex_lt
  have hne : e.idx ∉ Q.erase e.idx := by
    intro hm; have := h.nodup.mem_erase_iff.1 hm; exact this.1 rfl
  have hne' : (Q.erase e.idx).Nodup := h.nodup.erase _
  cases Q with
  | nil => cases hmem
  | cons a Q =>
    by_cases hea : e.idx = a
    · -- the slot is the oldest one
      subst hea
      rw [List.erase_cons_head] at *
      have key : Inv { s with data := s.data.set e.idx e, list := listOf Q } Q := by
        refine set_own_inv h rfl hne' (by omega) rfl h.chain.2 hne ?_ ?_ ?_
        · intro i hi hie; simp [hi, hie]
        · intros; rfl
        · intro i; rfl
      refine ⟨_, ?_, spawned_existing hlt rfl key (fun _ => rfl) (by simp)⟩
      have hl := h.list
      unfold spawn
      rw [ho]
      simp only [ha, Bool.false_eq_true, if_false]
      rcases List.eq_nil_or_concat Q with rfl | ⟨Q', n, rfl⟩
      · rw [listOf_singleton] at hl
        rw [hl]
        simp only [if_neg (show ¬ e.gen + 1 = 65536 by omega), if_pos hgen, if_true, bind,
          Except.bind, listOf_nil]
      · rw [List.concat_eq_append] at *
        rw [listOf_cons_snoc] at hl
        rw [hl]
        have hn : n ≠ e.idx := by
          have := h.nodup; rw [List.nodup_cons] at this
          rintro rfl; exact this.1 (by simp)
        obtain ⟨g, hgg⟩ := h.chain.1
        rw [ho] at hgg
        simp only [if_neg (show ¬ e.gen + 1 = 65536 by omega), if_pos hgen, if_true, if_neg hn,
          bind, Except.bind, getC, ho]
        cases hgg
        congr 3
        cases Q' with
        | nil => rfl
        | cons b Q' => rw [List.cons_append, listOf_cons_snoc]; rfl
    · -- the slot is further in the list
      obtain ⟨P, c, R, hQ, hhd⟩ := split_of_mem_tail hmem hea
      have hnd := h.nodup
      have hch := h.chain
      have hl := h.list
      rw [hQ] at hnd hch hl
      have herase : (a :: Q).erase e.idx = P ++ c :: R := by rw [hQ]; exact erase_split hnd
      rw [herase] at hne hne' ⊢
      have hce : c ≠ e.idx := by
        rintro rfl; apply hne; simp
      obtain ⟨oc, hoc, _⟩ := h.mem (q := c) (by rw [hQ]; simp)
      have hclt := lt_of_getElem?_some hoc
      -- link of `c` is `e.idx`
      have hch' := Seg.append.1 hch
      obtain ⟨⟨gc, hgc⟩, ⟨gx, hgx⟩, hR⟩ := hch'.2
      simp only [List.headD_cons] at hgc
      rw [ho] at hgx
      -- the new slots
      let nx := R.headD EId.maxIndex
      let d := s.data.set c ⟨nx, gc⟩
      have hd : d = s.data.set c ⟨nx, gc⟩ := rfl
      have hnxlt : nx < EId.INDEX_MASK := by
        show R.headD EId.maxIndex < _
        cases R with
        | nil => simpa using hmask
        | cons r R =>
          have := h.mem_lt (q := r) (by rw [hQ]; simp)
          simp only [List.headD_cons]; omega
      have hgens : ∀ (i : Nat), (d[i]?).map (·.gen) = s.genAt i := by
        intro i; rw [hd, set_idx_gens (by rw [hgc]; rfl)]; rfl
      have key : ∀ l, l = listOf (P ++ c :: R) →
          Inv { s with data := d.set e.idx e, list := l } (P ++ c :: R) := by
        intro l hll
        refine set_own_inv h hll hne' (by omega) (by simp [hd]) ?_ hne ?_ ?_ hgens
        · rw [Seg.append]
          have hnP : ∀ q ∈ P, c ≠ q := by
            rw [List.nodup_append] at hnd
            intro q hq e'; exact hnd.2.2 q hq c (by simp) e'.symm
          have hnR : ∀ q ∈ R, c ≠ q := by
            rw [List.nodup_append, List.nodup_cons] at hnd
            intro q hq e'; exact hnd.2.1.1 (by simp [e', hq])
          refine ⟨?_, ?_, ?_⟩
          · refine Seg.frame ?_ hch'.1
            intro q hq; exact List.getElem?_set_ne (hnP q hq)
          · exact ⟨gc, List.getElem?_set_self hclt⟩
          · refine Seg.frame ?_ hR
            intro q hq; exact List.getElem?_set_ne (hnR q hq)
        · intro i hi hie hm
          rw [hQ] at hm
          simp only [List.mem_append, List.mem_cons, not_or] at hi hm
          rcases hm with hm | hm | hm | hm
          · exact hi.1 hm
          · exact hi.2.1 hm
          · exact hie hm
          · exact hi.2.2 hm
        · intro i hi _
          exact List.getElem?_set_ne (by rintro rfl; exact hi (by simp))
      -- the list pair
      obtain ⟨n, hn⟩ : ∃ n, (e.idx :: R).getLast? = some n := by
        cases hh : (e.idx :: R).getLast? with
        | none => simp at hh
        | some n => exact ⟨n, rfl⟩
      have hl2 : s.list = some (n, a) := by
        rw [hl]
        unfold listOf
        have e1 : (P ++ c :: e.idx :: R).getLast? = some n := by
          rw [show P ++ c :: e.idx :: R = (P ++ [c]) ++ (e.idx :: R) by simp, List.getLast?_append, hn]
          rfl
        have e2 : (P ++ c :: e.idx :: R).head? = some a := by
          rw [← hQ]; rfl
        rw [e1, e2]
      have hwalk : walk s.data e.idx n s.data.length a = .ok c := by
        have := walk_spec P c R EId.maxIndex s.data.length hch hnd hn ?_
        · rw [hhd] at this; exact this
        · -- pigeonhole: the slots of the list are distinct and in range
          have hsub : (P ++ c :: e.idx :: R).length ≤ s.data.length := by
            have hb : ∀ q ∈ P ++ c :: e.idx :: R, q ∈ List.range s.data.length := by
              intro q hq
              rw [List.mem_range]
              exact h.mem_lt (by rw [hQ]; exact hq)
            exact nodup_length_le _ _ hnd (fun q hq => List.mem_range.1 (hb q hq))
          simp only [List.length_append, List.length_cons] at hsub
          omega
      by_cases hRn : R = []
      · -- the slot is the newest one
        subst hRn
        simp at hn
        subst hn
        have hlo : listOf (P ++ [c]) = some (c, a) := by
          rw [listOf_append_singleton]
          congr 2
          rw [← hhd]; cases P <;> rfl
        refine ⟨_, ?_, spawned_existing hlt (by simp [hd]) (key _ hlo.symm) hgens ?_⟩
        · unfold spawn
          rw [ho, hl2]
          simp only [ha, Bool.false_eq_true, if_false,
            if_neg (show ¬ e.gen + 1 = 65536 by omega), if_pos hgen, if_neg hea,
            bind, Except.bind, hwalk, getC, hgc, if_true]
          rw [setIdxC_ok hgc hmask]
          rfl
        · exact herase.symm
      · have hnne : e.idx ≠ n := by
          rintro rfl
          obtain ⟨r, R', rfl⟩ := List.exists_cons_of_ne_nil hRn
          rw [List.nodup_append, List.nodup_cons, List.nodup_cons] at hnd
          have : e.idx ∈ r :: R' := by
            have h1 : (e.idx :: r :: R').getLast? = (r :: R').getLast? := by
              simp [List.getLast?_cons_cons]
            rw [h1] at hn
            exact List.mem_of_getLast? hn
          exact hnd.2.1.2.1 this
        have hlo : s.list = listOf (P ++ c :: R) := by
          rw [hl2]
          unfold listOf
          have e1 : (P ++ c :: R).getLast? = some n := by
            obtain ⟨r, R', rfl⟩ := List.exists_cons_of_ne_nil hRn
            rw [show P ++ c :: r :: R' = (P ++ [c]) ++ (r :: R') by simp, List.getLast?_append]
            rw [List.getLast?_cons_cons] at hn
            rw [hn]; rfl
          have e2 : (P ++ c :: R).head? = some a := by
            have : (P ++ c :: R).head? = (P ++ [c]).head? := by cases P <;> simp
            rw [this, ← hhd]
            cases P <;> rfl
          rw [e1, e2]
        refine ⟨_, ?_, spawned_existing hlt (by simp [hd]) (key _ hlo) hgens ?_⟩
        · unfold spawn
          rw [ho, hl2]
          simp only [ha, Bool.false_eq_true, if_false,
            if_neg (show ¬ e.gen + 1 = 65536 by omega), if_pos hgen, if_neg hea,
            bind, Except.bind, hwalk, getC, hgc, if_neg hnne, ho]
          cases hgx
          rw [setIdxC_ok hgc hnxlt]
        · exact herase.symm

/-! ### spawn past the end -/

theorem linkGap_ok {start : Nat} : ∀ (n : Nat) (d : List EId), start + n ≤ d.length →
    d.length ≤ EId.maxIndex →
    ∃ d', linkGap d start n = .ok d' ∧ d'.length = d.length ∧
      ∀ i, d'[i]? = if start ≤ i ∧ i < start + n then (d[i]?).map (fun x => ⟨i + 1, x.gen⟩)
        else d[i]? := by
  intro n
  induction n generalizing start with
  | zero =>
    intro d _ _
    refine ⟨d, rfl, rfl, ?_⟩
    intro i; rw [if_neg (by omega)]
  | succ n ih =>
    intro d h1 h2
    have hlt : start < d.length := by omega
    obtain ⟨x, hx⟩ : ∃ x, d[start]? = some x := ⟨_, List.getElem?_eq_getElem hlt⟩
    have hmask := maxIndex_lt
    obtain ⟨d', hd', hlen, hget⟩ := ih (start := start + 1) (d.set start ⟨start + 1, x.gen⟩)
      (by simp; omega) (by simpa using h2)
    refine ⟨d', ?_, by simpa using hlen, ?_⟩
    · unfold linkGap
      rw [setIdxC_ok hx (by omega)]
      simp only [bind, Except.bind]
      exact hd'
    · intro i
      rw [hget i]
      by_cases hi : start = i
      · subst hi
        rw [if_neg (by omega), if_pos (by omega), List.getElem?_set_self hlt, hx]; rfl
      · rw [List.getElem?_set_ne hi]
        by_cases hc : start + 1 ≤ i ∧ i < start + 1 + n
        · rw [if_pos hc, if_pos (by omega)]
        · rw [if_neg hc, if_neg (by omega)]

theorem Seg_range' {d : List EId} {t : Nat} : ∀ (n start : Nat),
    (∀ i, start ≤ i → i < start + n →
      ∃ g, d[i]? = some ⟨if i + 1 = start + n then t else i + 1, g⟩) →
    Seg d (List.range' start n) t := by
  intro n
  induction n with
  | zero => intros; trivial
  | succ n ih =>
    intro start h
    rw [List.range'_succ]
    refine ⟨?_, ?_⟩
    · obtain ⟨g, hg⟩ := h start (Nat.le_refl _) (by omega)
      refine ⟨g, ?_⟩
      rw [hg]
      cases n with
      | zero => simp
      | succ n =>
        rw [List.range'_succ, List.headD_cons, if_neg (by omega)]
    · apply ih
      intro i h1 h2
      obtain ⟨g, hg⟩ := h i (by omega) (by omega)
      refine ⟨g, ?_⟩
      rw [hg]
      by_cases hi : i + 1 = start + (n + 1)
      · rw [if_pos hi, if_pos (by omega)]
      · rw [if_neg hi, if_neg (by omega)]

theorem spawn_beyond {s : Entities} {Q : List Nat} (h : Inv s Q) {e : EId}
    (hge : s.data.length ≤ e.idx) (hg : e.gen < 65536) (hcap : e.idx + 1 < EId.maxIndex) :
    ∃ s', spawn s e = .ok (true, s') ∧
      Spawned s s' Q (Q ++ List.range' s.data.length (e.idx - s.data.length)) e := by
  have hmask := maxIndex_lt
  have hnone : s.data[e.idx]? = none := List.getElem?_eq_none hge
  have hnq : e.idx ∉ Q := fun hm => by have := h.mem_lt hm; omega
  have hzero : EId.new 0 = .ok ⟨0, 0⟩ := rfl
  let L := s.data.length
  have hL : L = s.data.length := rfl
  let d0 := s.data ++ List.replicate (e.idx + 1 - L) (⟨0, 0⟩ : EId)
  have hd0 : d0 = s.data ++ List.replicate (e.idx + 1 - L) (⟨0, 0⟩ : EId) := rfl
  have hd0len : d0.length = e.idx + 1 := by simp [hd0, hL]; omega
  have hd0get : ∀ i, d0[i]? = if i < L then s.data[i]? else if i < e.idx + 1 then some ⟨0, 0⟩ else none := by
    intro i
    rw [hd0, List.getElem?_append]
    split
    · rfl
    · rw [List.getElem?_replicate]
      split
      · rw [if_pos (by omega)]
      · rw [if_neg (by omega)]
  by_cases hgap : e.idx = L
  · -- no gap
    have hr : e.idx - s.data.length = 0 := by omega
    have hget : ∀ i, (d0.set e.idx e)[i]? =
        if i < L then s.data[i]? else if i = e.idx then some e else none := by
      intro i
      by_cases hi : e.idx = i
      · subst hi; rw [List.getElem?_set_self (by omega), if_neg (by omega), if_pos rfl]
      · rw [List.getElem?_set_ne hi, hd0get]
        split
        · rfl
        · rw [if_neg (by omega), if_neg (Ne.symm hi)]
    refine ⟨{ s with data := d0.set e.idx e }, ?_, ?_⟩
    · unfold spawn
      rw [hnone]
      simp only [bind, Except.bind, hzero]
      rw [if_neg (by simp; omega)]
    · rw [hr]
      simp only [List.range'_zero, List.append_nil]
      refine ⟨⟨h.list, h.nodup, ?_, ?_, by simp; omega, ?_⟩, ?_, ?_, ?_, ?_, ?_, rfl, rfl⟩
      · refine Seg.frame ?_ h.chain
        intro q hq
        simp only [hget q]
        rw [if_pos (h.mem_lt hq)]
      · intro i x hx hi
        simp only [hget i] at hx
        split at hx
        · exact h.own i x hx hi
        · split at hx
          · rename_i hie; cases hx; exact hie.symm
          · cases hx
      · intro i x hx
        simp only [hget i] at hx
        split at hx
        · exact h.gens i x hx
        · split at hx
          · cases hx; exact hg
          · cases hx
      · unfold genAt; simp only [hget]; rw [if_neg (by omega)]; simp
      · intro i hi _; unfold genAt; simp only [hget]; rw [if_pos hi]
      · intro i h1 h2; omega
      · simp only [List.length_set, hd0len]; omega
      · rw [hr]; simp [List.erase_of_not_mem hnq]
  · -- a gap of slots `L ..< e.idx`
    have hLlt : L < e.idx := by omega
    -- slots after linking the previous newest slot to the gap
    have step1 : ∃ d1 : List EId, d1.length = d0.length ∧
        (match s.list with
          | some (new, old) => do
            let d ← setIdxC d0 new L
            (.ok { s with data := d, list := some (e.idx - 1, old) } : Res Entities)
          | none => .ok { s with data := d0, list := some (e.idx - 1, L) }) =
          .ok { s with data := d1, list := some (e.idx - 1, Q.headD L) } ∧
        Seg d1 Q L ∧
        (∀ i, i ∉ Q → d1[i]? = d0[i]?) ∧
        (∀ (i : Nat), (d1[i]?).map (·.gen) = (d0[i]?).map (·.gen)) := by
      have hl := h.list
      rcases List.eq_nil_or_concat Q with rfl | ⟨Q', n, rfl⟩
      · rw [listOf_nil] at hl
        refine ⟨d0, rfl, ?_, trivial, fun _ _ => rfl, fun _ => rfl⟩
        rw [hl]; rfl
      · rw [List.concat_eq_append] at *
        rw [listOf_append_singleton] at hl
        have hnm : n ∈ Q' ++ [n] := by simp
        have hnlt := h.mem_lt hnm
        have hch := Seg.append.1 h.chain
        obtain ⟨g, hgn⟩ := hch.2.1
        have hgn0 : d0[n]? = some ⟨([] : List Nat).headD EId.maxIndex, g⟩ := by
          rw [hd0get, if_pos hnlt]; exact hgn
        refine ⟨d0.set n ⟨L, g⟩, by simp, ?_, ?_, ?_, ?_⟩
        · rw [hl]
          simp only [setIdxC_ok hgn0 (show L < EId.INDEX_MASK by omega), bind, Except.bind]
          congr 3
          cases Q' <;> rfl
        · rw [Seg.append]
          refine ⟨?_, ?_, trivial⟩
          · refine Seg.frame ?_ hch.1
            intro q hq
            have hnd := h.nodup
            rw [List.nodup_append] at hnd
            rw [List.getElem?_set_ne (by rintro rfl; exact hnd.2.2 n hq n (by simp) rfl), hd0get,
              if_pos (h.mem_lt (by simp [hq]))]
          · exact ⟨g, List.getElem?_set_self (by omega)⟩
        · intro i hi
          exact List.getElem?_set_ne (by rintro rfl; exact hi hnm)
        · intro i; exact set_idx_gens (by rw [hgn0]; rfl) i
    obtain ⟨d1, hd1len, hd1, hd1seg, hd1get, hd1gen⟩ := step1
    obtain ⟨d2, hd2, hd2len, hd2get⟩ := linkGap_ok (start := L) (e.idx - 1 - L) d1
      (by omega) (by omega)
    have hd1gap : ∀ i, L ≤ i → i < e.idx + 1 → d1[i]? = some ⟨0, 0⟩ := by
      intro i h1 h2
      rw [hd1get i (fun hm => by have := h.mem_lt hm; omega), hd0get, if_neg (by omega), if_pos h2]
    have hd2last : d2[e.idx - 1]? = some ⟨0, 0⟩ := by
      rw [hd2get, if_neg (by omega)]; exact hd1gap _ (by omega) (by omega)
    let d3 := d2.set (e.idx - 1) ⟨EId.maxIndex, 0⟩
    have hd3 : d3 = d2.set (e.idx - 1) ⟨EId.maxIndex, 0⟩ := rfl
    have hget : ∀ i, (d3.set e.idx e)[i]? =
        if i < L then d1[i]?
        else if i < e.idx then some ⟨if i + 1 = e.idx then EId.maxIndex else i + 1, 0⟩
        else if i = e.idx then some e else none := by
      intro i
      by_cases hi : e.idx = i
      · subst hi
        rw [List.getElem?_set_self (by simp [hd3]; omega), if_neg (by omega), if_neg (by omega),
          if_pos rfl]
      · rw [List.getElem?_set_ne hi, hd3]
        by_cases hi2 : e.idx - 1 = i
        · subst hi2
          rw [List.getElem?_set_self (by omega), if_neg (by omega), if_pos (by omega),
            if_pos (by omega)]
        · rw [List.getElem?_set_ne hi2, hd2get]
          by_cases hiL : i < L
          · rw [if_neg (by omega), if_pos hiL]
          · rw [if_neg hiL]
            by_cases hie : i < e.idx
            · rw [if_pos (by omega), if_pos hie, hd1gap i (by omega) (by omega),
                if_neg (by omega)]
              rfl
            · rw [if_neg (by omega), if_neg hie, if_neg (Ne.symm hi),
                List.getElem?_eq_none (by omega)]
    have hgenold : ∀ i, i < L → (d1[i]?).map (·.gen) = s.genAt i := by
      intro i hi
      rw [hd1gen, hd0get, if_pos hi]; rfl
    refine ⟨{ s with data := d3.set e.idx e, list := some (e.idx - 1, Q.headD L) }, ?_, ?_⟩
    · unfold spawn
      rw [hnone]
      simp only [bind, Except.bind, hzero]
      rw [if_pos (by simp; omega)]
      simp only [bind, Except.bind] at hd1
      rcases hsl : s.list with _ | ⟨new, old⟩
      · rw [hsl] at hd1
        simp only [Except.ok.injEq, Entities.mk.injEq, Option.some.injEq, Prod.mk.injEq,
          true_and, and_true] at hd1
        simp only
        rw [← hd0, hd1.1, ← hL, hd2]
        simp only
        rw [setIdxC_ok hd2last hmask, ← hd1.2]
      · rw [hsl] at hd1
        simp only
        rw [← hd0, ← hL]
        simp only at hd1
        rcases hset : setIdxC d0 new L with er | d
        · rw [hset] at hd1; cases hd1
        · rw [hset] at hd1
          simp only [Except.ok.injEq, Entities.mk.injEq, Option.some.injEq, Prod.mk.injEq,
            true_and, and_true] at hd1
          rw [hd1.1, ← hd1.2]
          simp only
          rw [hd2]
          simp only
          rw [setIdxC_ok hd2last hmask]
    · have hlo : some (e.idx - 1, Q.headD L) =
          listOf (Q ++ List.range' s.data.length (e.idx - s.data.length)) := by
        obtain ⟨k, hk⟩ : ∃ k, e.idx - s.data.length = k + 1 := ⟨e.idx - s.data.length - 1, by omega⟩
        rw [hk, List.range'_concat, ← List.append_assoc, listOf_append_singleton]
        congr 2
        · omega
        · cases Q with
          | nil =>
            cases k with
            | zero => simp; exact hL
            | succ k => simp [List.range'_succ]; exact hL
          | cons a Q => rfl
      refine ⟨⟨hlo, ?_, ?_, ?_, by simp [hd3]; omega, ?_⟩, ?_, ?_, ?_, ?_, ?_, rfl, rfl⟩
      · rw [List.nodup_append]
        refine ⟨h.nodup, List.nodup_range' , ?_⟩
        intro a ha b hb
        have h1 := h.mem_lt ha
        rw [List.mem_range'_1] at hb
        omega
      · rw [Seg.append]
        have hhd : (List.range' s.data.length (e.idx - s.data.length)).headD EId.maxIndex = L := by
          obtain ⟨k, hk⟩ : ∃ k, e.idx - s.data.length = k + 1 :=
            ⟨e.idx - s.data.length - 1, by omega⟩
          rw [hk, List.range'_succ]; rfl
        rw [hhd]
        refine ⟨?_, ?_⟩
        · refine Seg.frame ?_ hd1seg
          intro q hq
          simp only [hget q]
          rw [if_pos (h.mem_lt hq)]
        · apply Seg_range'
          intro i h1 h2
          refine ⟨0, ?_⟩
          simp only [hget i]
          rw [if_neg (by omega), if_pos (by omega)]
          have : s.data.length + (e.idx - s.data.length) = e.idx := by omega
          rw [this]
      · intro i x hx hi
        simp only [List.mem_append, List.mem_range'_1, not_or] at hi
        simp only [hget i] at hx
        split at hx
        · rename_i hiL
          rw [hd1get i hi.1, hd0get, if_pos hiL] at hx
          exact h.own i x hx hi.1
        · split at hx
          · exfalso; omega
          · split at hx
            · rename_i hie; cases hx; exact hie.symm
            · cases hx
      · intro i x hx
        simp only [hget i] at hx
        split at hx
        · rename_i hiL
          have h1 := hgenold i hiL
          rw [hx] at h1
          unfold genAt at h1
          rcases ho : s.data[i]? with _ | o
          · rw [ho] at h1; cases h1
          · rw [ho] at h1; have h2 := h.gens i o ho; simp at h1; omega
        · split at hx
          · cases hx; simp
          · split at hx
            · cases hx; exact hg
            · cases hx
      · unfold genAt; simp only [hget]
        rw [if_neg (by omega), if_neg (by omega)]; simp
      · intro i hi _
        unfold genAt; simp only [hget]
        rw [if_pos hi]; exact hgenold i hi
      · intro i h1 h2
        unfold genAt; simp only [hget]
        rw [if_neg (by omega), if_pos h2]; rfl
      · simp only [List.length_set, hd3, hd2len, hd1len, hd0len]; omega
      · rw [List.erase_of_not_mem hnq]

end Verif.Entities
