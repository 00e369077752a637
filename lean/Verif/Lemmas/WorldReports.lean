import Verif.Spec.WorldReports
import Verif.Lemmas.WorldReach

/-!
# From the tables of storages to what they show
-/
namespace Verif
open StoSpec (Sto Row lookup setRow removeRow insertRow Valid)
open SparseSet (Abs)
open WSpec
namespace World
variable {V : Type} {fl : Flags}

theorem had_eq {s : SparseSet V} {a : Sto V} {L} (h : AbsW s a L) {e : EId} (he : e.gen < 65535) :
    had s e = (lookup a.rows e).toList := by
  unfold had
  rw [h.get he]
  cases lookup a.rows e <;> rfl

theorem observe_none_iff (a : Sto V) (e : EId) : SparseSet.Sto.observe a e = none ↔ lookup a.rows e = none := by
  unfold SparseSet.Sto.observe lookup
  cases a.rows e.idx with
  | none => simp
  | some r => simp only [Option.bind_some]; split <;> simp

/-- What a table shows about an entity only depends on its row and on what is tracked. -/
theorem observe_other {a b : Sto V} {e x : EId} {r : Option (Row V)} (hb : b.rows = setRow a.rows e.idx r)
    (hi : b.trkIns = a.trkIns) (hm : b.trkMod = a.trkMod) (hx : x ≠ e)
    (hown : ∀ r', a.rows e.idx = some r' → r'.gen = e.gen) (hown' : ∀ r', r = some r' → r'.gen = e.gen) :
    SparseSet.Sto.observe b x = SparseSet.Sto.observe a x := by
  unfold SparseSet.Sto.observe
  rw [hb, hi, hm]
  by_cases hxi : x.idx = e.idx
  · have hg : x.gen ≠ e.gen := fun hg => hx (by cases x; cases e; simp_all)
    simp only [setRow, hxi, if_true]
    have h1 : ∀ (o : Option (Row V)), (∀ r', o = some r' → r'.gen = e.gen) →
        (o.bind fun r => if r.gen = x.gen then
          some (r.val, (if a.trkIns then some r.ins else none), (if a.trkMod then some r.mod else none)) else none) = none := by
      intro o ho
      cases o with
      | none => rfl
      | some r' => simp only [Option.bind_some]; rw [if_neg (by rw [ho r' rfl]; exact fun h => hg h.symm)]
    rw [h1 _ hown', h1 _ hown]
  · simp only [setRow, if_neg hxi]

theorem onlyFor {s s' : SparseSet V} {a b : Sto V} {L L'} (h : AbsW s a L) (h' : AbsW s' b L') {e : EId} {r : Option (Row V)}
    (hb : b.rows = setRow a.rows e.idx r)
    (hown : ∀ r', a.rows e.idx = some r' → r'.gen = e.gen) (hown' : ∀ r', r = some r' → r'.gen = e.gen)
    (h1 : b.trkIns = a.trkIns) (h2 : b.trkMod = a.trkMod) (h3 : b.trkDel = a.trkDel) (h4 : b.trkRem = a.trkRem)
    (h5 : b.lastInsert = a.lastInsert) (h6 : b.lastModified = a.lastModified) (h7 : b.hookIns = a.hookIns)
    (h8 : b.hookRem = a.hookRem) : OnlyFor e s s' where
  others x hx hg := by
    rw [h.toAbs.observe hg, h'.toAbs.observe hg, observe_other hb h1 h2 hx hown hown']
  tracks := by rw [h.trkIns, h.trkMod, h.trkDel, h.trkRem, h'.trkIns, h'.trkMod, h'.trkDel, h'.trkRem, h1, h2, h3, h4]; simp
  clears := by rw [h.lastInsert, h.lastModified, h'.lastInsert, h'.lastModified, h5, h6]; simp
  callbacks := by rw [h.hookIns, h.hookRem, h'.hookIns, h'.hookRem, h7, h8]; simp

theorem removeRow_own {a : Sto V} {e : EId} (hown : ∀ r', a.rows e.idx = some r' → r'.gen = e.gen) : removeRow a e = none := by
  unfold removeRow
  cases h : a.rows e.idx with
  | none => rfl
  | some r => simp only [Option.bind_some]; rw [if_pos (by rw [hown r h]; exact Nat.le_refl _)]

theorem observe_setRow_none {a b : Sto V} {e : EId} (hb : b.rows = setRow a.rows e.idx none) :
    SparseSet.Sto.observe b e = none := by
  unfold SparseSet.Sto.observe
  rw [hb]; simp [setRow]

theorem deleted_of {s s' : SparseSet V} {a : Sto V} {L L'} {e : EId} {now : Nat} (h : AbsW s a L)
    (h' : AbsW s' (delTab e now a) L') (he : e.gen < 65535) (hown : ∀ r', a.rows e.idx = some r' → r'.gen = e.gen) :
    Deleted e now s s' where
  toOnlyFor := onlyFor h h' (r := none) (by rw [rows_delTab, removeRow_own hown]) hown (fun _ h => by cases h)
    rfl rfl rfl rfl rfl rfl rfl rfl
  gone := by rw [h'.toAbs.observe he, observe_setRow_none (a := a) (e := e) (by rw [rows_delTab, removeRow_own hown])]
  deleted := by
    rw [h.deleted trivial, h'.deleted trivial, h.trkDel, had_eq h he]
    unfold delTab StoSpec.step whenOn
    cases lookup a.rows e <;> cases a.trkDel <;> simp
  removed := by rw [h.removed, h'.removed]; rfl
  calledIns := by rw [h.insCalls, h'.insCalls]; rfl
  calledRem := by
    rw [h.remCalls trivial, h'.remCalls trivial, h.hookRem, had_eq h he]
    unfold delTab StoSpec.step whenOn
    cases lookup a.rows e <;> cases a.hookRem <;> simp

theorem removed_of {s s' : SparseSet V} {a : Sto V} {L L'} {e : EId} {now : Nat} (h : AbsW s a L)
    (h' : AbsW s' (remTab e now a) L') (he : e.gen < 65535) (hown : ∀ r', a.rows e.idx = some r' → r'.gen = e.gen) :
    Removed e now s s' where
  toOnlyFor := onlyFor h h' (r := none) (by rw [rows_remTab, removeRow_own hown]) hown (fun _ h => by cases h)
    rfl rfl rfl rfl rfl rfl rfl rfl
  gone := by rw [h'.toAbs.observe he, observe_setRow_none (a := a) (e := e) (by rw [rows_remTab, removeRow_own hown])]
  deleted := by rw [h.deleted trivial, h'.deleted trivial]; rfl
  removed := by
    rw [h.removed, h'.removed, h.trkRem, had_eq h he]
    unfold remTab StoSpec.step whenOn
    cases lookup a.rows e <;> cases a.trkRem <;> simp
  calledIns := by rw [h.insCalls, h'.insCalls]; rfl
  calledRem := by
    rw [h.remCalls trivial, h'.remCalls trivial, h.hookRem, had_eq h he]
    unfold remTab StoSpec.step whenOn
    cases lookup a.rows e <;> cases a.hookRem <;> simp

theorem insertRow_own {a : Sto V} {e : EId} {v : V} {now : Nat} (hown : ∀ r', a.rows e.idx = some r' → r'.gen = e.gen) :
    insertRow a e v now = some (match a.rows e.idx with
      | none => ⟨e.gen, v, StoSpec.tracked a.trkIns now 0, 0⟩
      | some r => { r with val := v, mod := StoSpec.tracked a.trkMod now r.mod }) := by
  unfold insertRow
  cases h : a.rows e.idx with
  | none => rfl
  | some r => simp only; rw [if_pos (hown r h)]

theorem gained_of {s s' : SparseSet V} {a : Sto V} {L L'} {e : EId} {v : V} {now : Nat} (h : AbsW s a L)
    (h' : AbsW s' (insTab e v now a) L') (he : e.gen < 65535) (hown : ∀ r', a.rows e.idx = some r' → r'.gen = e.gen) :
    Gained e v now s s' where
  toOnlyFor := onlyFor h h' (rows_insTab e v now a) hown (fun r' hr => by
      rw [insertRow_own hown] at hr
      cases hr
      cases hc : a.rows e.idx with
      | none => rfl
      | some r => exact hown r hc) rfl rfl rfl rfl rfl rfl rfl rfl
  new hn := by
    rw [h.toAbs.observe he] at hn
    rw [h'.toAbs.observe he, h.trkIns, h.trkMod]
    unfold SparseSet.Sto.observe at hn ⊢
    rw [rows_insTab, insertRow_own hown]
    simp only [setRow, if_true, Option.bind_some]
    cases hc : a.rows e.idx with
    | none =>
      by_cases hI : a.trkIns = true <;> by_cases hM : a.trkMod = true <;> simp [hI, hM, insTab, StoSpec.step, StoSpec.tracked]
    | some r =>
      rw [hc] at hn
      simp [hown r hc] at hn
  replaced v0 i m hn := by
    rw [h.toAbs.observe he] at hn
    rw [h'.toAbs.observe he, h.trkMod]
    unfold SparseSet.Sto.observe at hn ⊢
    rw [rows_insTab, insertRow_own hown]
    simp only [setRow, if_true, Option.bind_some]
    cases hc : a.rows e.idx with
    | none => rw [hc] at hn; simp at hn
    | some r =>
      rw [hc] at hn
      simp only [Option.bind_some, hown r hc, if_true, Except.ok.injEq, Option.some.injEq, Prod.mk.injEq] at hn ⊢
      refine ⟨trivial, hn.2.1, ?_⟩
      simp only [insTab, StoSpec.step, StoSpec.tracked]
      by_cases hI : a.trkMod = true <;> simp [hI]
  deleted := by rw [h.deleted trivial, h'.deleted trivial]; rfl
  removed := by rw [h.removed, h'.removed]; rfl
  calledIns := by
    rw [h.insCalls, h'.insCalls, h.hookIns]
    have : StoSpec.accepts a e = true := by
      unfold StoSpec.accepts
      cases hc : a.rows e.idx with
      | none => rfl
      | some r => simp [hown r hc]
    show (if a.hookIns && StoSpec.accepts a e then a.insCalls ++ [(e, v)] else a.insCalls) = _
    rw [this]
    unfold whenOn
    cases a.hookIns <;> simp
  calledRem := by rw [h.remCalls trivial, h'.remCalls trivial]; rfl

/-! ## The loops, storage by storage -/

theorem mapStos_each {f : Nat → SparseSet V → Res (SparseSet V)} : ∀ {l l' : List (Nat × SparseSet V)},
    mapStos f l = .ok l' → ∀ k s, lookupK l k = some s → ∃ s', lookupK l' k = some s' ∧ f k s = .ok s'
  | [], _, _, k, s, h => by cases h
  | (j, t) :: l, l', h, k, s, hk => by
    simp only [mapStos, bind, Except.bind] at h
    split at h
    · cases h
    rename_i t' ht
    split at h
    · cases h
    rename_i l2 hl
    cases h
    simp only [lookupK] at hk ⊢
    split at hk
    · rename_i hkj
      cases hk
      rw [if_pos hkj, hkj]
      exact ⟨t', rfl, ht⟩
    · rename_i hkj
      rw [if_neg hkj]
      exact mapStos_each hl k s hk

theorem lookupK_put (w : World V) (k : Nat) (s : SparseSet V) (j : Nat) :
    lookupK (w.put k s).stos j = if j = k then some s else lookupK w.stos j := lookupK_setK _ _ _ _

theorem stoOr_put_ne {w : World V} {k : Nat} {s : SparseSet V} {j : Nat} (h : j ≠ k) :
    (w.put k s).stoOr fl j = w.stoOr fl j := by
  unfold World.stoOr
  rw [lookupK_put, if_neg h]

theorem addAll_each {e : EId} {now : Nat} : ∀ {cs : List (Nat × Option V)} {w w' : World V},
    addAll fl e now cs w = .ok (.returned, w') → (cs.map Prod.fst).Nodup →
    (∀ k, (∀ v, (k, some v) ∉ cs) → lookupK w'.stos k = lookupK w.stos k) ∧
    ∀ k v, (k, some v) ∈ cs → ∃ r s', (w.stoOr fl k).insert e v now = .ok (r, s') ∧ lookupK w'.stos k = some s'
  | [], w, w', h, _ => by
    cases h
    exact ⟨fun _ _ => rfl, fun _ _ h => by cases h⟩
  | (j, none) :: cs, w, w', h, hn => by
    simp only [List.map_cons, List.nodup_cons] at hn
    obtain ⟨h1, h2⟩ := addAll_each (cs := cs) h hn.2
    refine ⟨fun k hk => h1 k fun v hv => hk v (List.mem_cons_of_mem _ hv), fun k v hm => ?_⟩
    rcases List.mem_cons.1 hm with hm | hm
    · cases hm
    · exact h2 k v hm
  | (j, some u) :: cs, w, w', h, hn => by
    simp only [List.map_cons, List.nodup_cons] at hn
    simp only [addAll, bind, Except.bind] at h
    split at h
    · cases h
    rename_i x hx
    obtain ⟨r, t⟩ := x
    dsimp only at h
    split at h
    · obtain ⟨h1, h2⟩ := addAll_each (cs := cs) h hn.2
      have hj : ∀ v, (j, some v) ∉ cs := fun v hv => hn.1 (List.mem_map.2 ⟨_, hv, rfl⟩)
      refine ⟨fun k hk => ?_, fun k v hm => ?_⟩
      · rw [h1 k fun v hv => hk v (List.mem_cons_of_mem _ hv), lookupK_put, if_neg]
        rintro rfl
        exact hk u (List.mem_cons_self ..)
      · rcases List.mem_cons.1 hm with hm | hm
        · cases hm
          exact ⟨r, t, hx, by rw [h1 j hj, lookupK_put, if_pos rfl]⟩
        · rename_i hm
          obtain ⟨r', s', h3, h4⟩ := h2 k v hm
          have hkj : k ≠ j := fun h => hj v (h ▸ hm)
          rw [stoOr_put_ne hkj] at h3
          exact ⟨r', s', h3, h4⟩
    · cases h

theorem removeAll_each {e : EId} {now : Nat} : ∀ {ks : List Nat} {w w' : World V} {rs : List (Option V)},
    removeAll fl e now ks w = .ok (rs, w') → ks.Nodup →
    (∀ k, k ∉ ks → lookupK w'.stos k = lookupK w.stos k) ∧
    ∀ k, k ∈ ks → ∃ r s', (w.stoOr fl k).dynRemove e now = .ok (r, s') ∧ lookupK w'.stos k = some s'
  | [], w, w', rs, h, _ => by
    cases h
    exact ⟨fun _ _ => rfl, fun _ h => by cases h⟩
  | j :: ks, w, w', rs, h, hn => by
    simp only [List.nodup_cons] at hn
    simp only [removeAll, bind, Except.bind] at h
    split at h
    · cases h
    rename_i x hx
    obtain ⟨r, t⟩ := x
    dsimp only at h
    split at h
    · cases h
    rename_i y hy
    obtain ⟨rs', w2⟩ := y
    cases h
    obtain ⟨h1, h2⟩ := removeAll_each (ks := ks) hy hn.2
    refine ⟨fun k hk => ?_, fun k hm => ?_⟩
    · rw [h1 k fun hv => hk (List.mem_cons_of_mem _ hv), lookupK_put, if_neg]
      rintro rfl
      exact hk (List.mem_cons_self ..)
    · by_cases hkj : k = j
      · subst hkj
        exact ⟨r, t, hx, by rw [h1 k hn.1, lookupK_put, if_pos rfl]⟩
      · obtain ⟨r', s', h3, h4⟩ := h2 k ((List.mem_cons.1 hm).resolve_left hkj)
        rw [stoOr_put_ne hkj] at h3
        exact ⟨r', s', h3, h4⟩

theorem putOpt_each {o o' : World V} {k : Nat} {dst : EId} {nowO : Nat} {c : Option V}
    (h : putOpt fl o k dst nowO c = .ok o') :
    (∀ j, j ≠ k → lookupK o'.stos j = lookupK o.stos j) ∧ (c = none → o' = o) ∧
    ∀ v, c = some v → ∃ r t, (o.stoOr fl k).insert dst v nowO = .ok (r, t) ∧ lookupK o'.stos k = some t := by
  cases c with
  | none => cases h; exact ⟨fun _ _ => rfl, fun _ => rfl, fun _ h => by cases h⟩
  | some v =>
    simp only [putOpt, bind, Except.bind] at h
    split at h
    · cases h
    rename_i x hx
    obtain ⟨r, t⟩ := x
    cases h
    refine ⟨fun j hj => by rw [lookupK_put, if_neg hj], (fun h => by cases h), fun v' hv => ?_⟩
    cases hv
    exact ⟨r, t, hx, by rw [lookupK_put, if_pos rfl]⟩

theorem stoOr_eq {w w' : World V} {k : Nat} (h : lookupK w'.stos k = lookupK w.stos k) : w'.stoOr fl k = w.stoOr fl k := by
  unfold World.stoOr; rw [h]

theorem moveLoop_each {src dst : EId} {now nowO : Nat} : ∀ {l l' : List (Nat × SparseSet V)} {o o' : World V},
    moveLoop fl src dst now nowO l o = .ok (l', o') → (l.map Prod.fst).Nodup →
    (∀ k, lookupK l k = none → lookupK l' k = none ∧ lookupK o'.stos k = lookupK o.stos k) ∧
    ∀ k s, lookupK l k = some s → ∃ c s', s.dynRemove src now = .ok (c, s') ∧ lookupK l' k = some s' ∧
      (c = none → lookupK o'.stos k = lookupK o.stos k) ∧
      ∀ v, c = some v → ∃ r t, (o.stoOr fl k).insert dst v nowO = .ok (r, t) ∧ lookupK o'.stos k = some t
  | [], l', o, o', h, _ => by
    cases h
    exact ⟨fun _ _ => ⟨rfl, rfl⟩, fun _ _ h => by cases h⟩
  | (j, s0) :: l, l', o, o', h, hn => by
    simp only [List.map_cons, List.nodup_cons] at hn
    simp only [moveLoop, bind, Except.bind] at h
    split at h
    · cases h
    rename_i x hx
    obtain ⟨c, s1⟩ := x
    dsimp only at h
    split at h
    · cases h
    rename_i o1 ho1
    split at h
    · cases h
    rename_i y hy
    obtain ⟨l2, o2⟩ := y
    cases h
    obtain ⟨h1, h2⟩ := moveLoop_each (l := l) hy hn.2
    obtain ⟨p1, p2, p3⟩ := putOpt_each ho1
    have hj : lookupK l j = none := lookupK_none.2 hn.1
    refine ⟨fun k hk => ?_, fun k s hk => ?_⟩
    · simp only [lookupK] at hk ⊢
      split at hk
      · cases hk
      rename_i hkj
      rw [if_neg hkj]
      exact ⟨(h1 k hk).1, by rw [(h1 k hk).2, p1 k hkj]⟩
    · simp only [lookupK] at hk ⊢
      split at hk
      · rename_i hkj
        cases hk
        subst hkj
        rw [if_pos rfl]
        refine ⟨c, s1, hx, rfl, fun hc => by rw [(h1 k hj).2, p2 hc], fun v hv => ?_⟩
        obtain ⟨r, t, q1, q2⟩ := p3 v hv
        exact ⟨r, t, q1, by rw [(h1 k hj).2, q2]⟩
      · rename_i hkj
        rw [if_neg hkj]
        obtain ⟨c', s', q1, q2, q3, q4⟩ := h2 k s hk
        refine ⟨c', s', q1, q2, fun hc => by rw [q3 hc, p1 k hkj], fun v hv => ?_⟩
        obtain ⟨r, t, q5, q6⟩ := q4 v hv
        rw [stoOr_eq (p1 k hkj)] at q5
        exact ⟨r, t, q5, q6⟩

theorem cloneCompLoop_each {cl : Nat → V → V} {src dst : EId} {nowO : Nat} : ∀ {l : List (Nat × SparseSet V)} {o o' : World V},
    cloneCompLoop fl cl src dst nowO l o = .ok o' → (l.map Prod.fst).Nodup →
    (∀ k, lookupK l k = none → lookupK o'.stos k = lookupK o.stos k) ∧
    ∀ k s, lookupK l k = some s → ∃ c, cloneOf cl src k s = .ok c ∧
      (c = none → lookupK o'.stos k = lookupK o.stos k) ∧
      ∀ v, c = some v → ∃ r t, (o.stoOr fl k).insert dst v nowO = .ok (r, t) ∧ lookupK o'.stos k = some t
  | [], o, o', h, _ => by
    cases h
    exact ⟨fun _ _ => rfl, fun _ _ h => by cases h⟩
  | (j, s0) :: l, o, o', h, hn => by
    simp only [List.map_cons, List.nodup_cons] at hn
    simp only [cloneCompLoop, bind, Except.bind] at h
    split at h
    · cases h
    rename_i c hx
    split at h
    · cases h
    rename_i o1 ho1
    obtain ⟨h1, h2⟩ := cloneCompLoop_each (l := l) h hn.2
    obtain ⟨p1, p2, p3⟩ := putOpt_each ho1
    have hj : lookupK l j = none := lookupK_none.2 hn.1
    refine ⟨fun k hk => ?_, fun k s hk => ?_⟩
    · simp only [lookupK] at hk
      split at hk
      · cases hk
      rename_i hkj
      rw [h1 k hk, p1 k hkj]
    · simp only [lookupK] at hk
      split at hk
      · rename_i hkj
        cases hk
        subst hkj
        refine ⟨c, hx, fun hc => by rw [h1 k hj, p2 hc], fun v hv => ?_⟩
        obtain ⟨r, t, q1, q2⟩ := p3 v hv
        exact ⟨r, t, q1, by rw [h1 k hj, q2]⟩
      · rename_i hkj
        obtain ⟨c', q1, q3, q4⟩ := h2 k s hk
        refine ⟨c', q1, fun hc => by rw [q3 hc, p1 k hkj], fun v hv => ?_⟩
        obtain ⟨r, t, q5, q6⟩ := q4 v hv
        rw [stoOr_eq (p1 k hkj)] at q5
        exact ⟨r, t, q5, q6⟩

/-! ## In a world -/

namespace Ok
variable {w : World V} {A : Nat → Option (Sto V)} {Q : List Nat} {I : List EId}

theorem some_tab (h : Ok w A Q I) {k : Nat} {s : SparseSet V} (hk : lookupK w.stos k = some s) :
    ∃ a L, A k = some a ∧ AbsW s a L := by
  have hs := h.sto k
  rw [hk] at hs
  generalize hA : A k = ao at hs
  cases hs with
  | some ha => exact ⟨_, _, rfl, ha⟩

theorem own_or (h : Ok w A Q I) {e : EId} (he : w.ents.isAlive e = true) (k : Nat) (r : Row V)
    (hr : (tabOr fl A k).rows e.idx = some r) : r.gen = e.gen := by
  have := alive_same (h.tabOr_owned (fl := fl) k _ r hr) he rfl
  rw [← this]

theorem gained (h : Ok w A Q I) {e : EId} (he : w.ents.isAlive e = true) {k : Nat} {v : V} {now : Nat} {r s'}
    (hi : (w.stoOr fl k).insert e v now = .ok (r, s')) : Gained e v now (w.stoOr fl k) s' := by
  obtain ⟨L, ha⟩ := h.stoOr (fl := fl) k
  have hv := h.ent.valid he
  obtain ⟨r', s'', L', h1, _, h3⟩ := insert_tab ha hv (h.own_or he k) v now
  rw [hi] at h1
  cases h1
  exact gained_of ha h3 hv.1 (h.own_or he k)

theorem removed_or (h : Ok w A Q I) {e : EId} (he : w.ents.isAlive e = true) {k : Nat} {now : Nat} {c s'}
    (hi : (w.stoOr fl k).dynRemove e now = .ok (c, s')) : Removed e now (w.stoOr fl k) s' := by
  obtain ⟨L, ha⟩ := h.stoOr (fl := fl) k
  have hv := h.ent.valid he
  obtain ⟨s'', L', h1, h3⟩ := dynRemove_tab ha hv now
  rw [hi] at h1
  cases h1
  exact removed_of ha h3 hv.1 (h.own_or he k)

theorem removed (h : Ok w A Q I) {e : EId} (he : w.ents.isAlive e = true) {k : Nat} {s : SparseSet V}
    (hk : lookupK w.stos k = some s) {now : Nat} {c s'} (hi : s.dynRemove e now = .ok (c, s')) :
    Removed e now s s' ∧ s.get e = .ok c := by
  obtain ⟨a, L, hA, ha⟩ := h.some_tab hk
  have hv := h.ent.valid he
  obtain ⟨s'', L', h1, h3⟩ := dynRemove_tab ha hv now
  rw [hi] at h1
  cases h1
  exact ⟨removed_of ha h3 hv.1 (fun r hr => h.rowAt hA he hr), ha.get hv.1⟩

theorem deleted (h : Ok w A Q I) {e : EId} (he : w.ents.isAlive e = true) {k : Nat} {s : SparseSet V}
    (hk : lookupK w.stos k = some s) {now : Nat} {s'} (hi : stoDelete e now s = .ok s') : Deleted e now s s' := by
  obtain ⟨a, L, hA, ha⟩ := h.some_tab hk
  have hv := h.ent.valid he
  obtain ⟨s'', L', h1, h3⟩ := stoDelete_ok ha hv now
  rw [hi] at h1
  cases h1
  exact deleted_of ha h3 hv.1 (fun r hr => h.rowAt hA he hr)

end Ok

theorem emptied_of {s s' : SparseSet V} {a : Sto V} {L L'} {now : Nat} (h : AbsW s a L)
    (h' : AbsW s' (StoSpec.step a (.cleared now (s.dense.zip s.data))) L') : Emptied now s s' (s.dense.zip s.data) where
  gone x hx := by
    rw [h'.toAbs.observe hx]
    rfl
  once := by
    have hd : s.dense = L.map (·.id) := congrArg SparseSet.dense h.shape
    have hv : s.data = L.map (·.val) := congrArg SparseSet.data h.shape
    rw [hd, hv, List.zip_map', List.map_map]
    have hn := h.ok.nodup
    rw [List.nodup_iff_pairwise_ne, List.pairwise_map] at hn ⊢
    exact hn.imp fun hne heq => hne (congrArg EId.idx heq)
  all x v hx := by
    have hd : s.dense = L.map (·.id) := congrArg SparseSet.dense h.shape
    have hv : s.data = L.map (·.val) := congrArg SparseSet.data h.shape
    rw [hd, hv, List.zip_map', List.mem_map, h.get hx]
    constructor
    · rintro ⟨c, hc, hcx⟩
      cases hcx
      unfold lookup
      rw [h.rows, (SparseSet.cellAt_some h.ok).2 ⟨hc, rfl⟩]
      have := h.clean trivial c hc
      simp [SparseSet.Cell.toRow, this]
    · intro hl
      injection hl with hl
      unfold lookup at hl
      rw [h.rows] at hl
      cases hc : SparseSet.cellAt L x.idx with
      | none => rw [hc] at hl; cases hl
      | some c =>
        rw [hc] at hl
        simp only [Option.map_some, Option.bind_some] at hl
        split at hl
        · rename_i hg
          cases hl
          obtain ⟨h3, h4⟩ := (SparseSet.cellAt_some h.ok).1 hc
          refine ⟨c, h3, ?_⟩
          have h5 := h.clean trivial c h3
          have h6 : c.gen = x.gen := hg
          have : c.id = x := by
            have h7 : c.id.gen = x.gen := by omega
            cases hi : c.id; cases x
            rw [hi] at h4 h7
            simp_all
          rw [this]; rfl
        · cases hl
  deleted := by
    rw [h.deleted trivial, h'.deleted trivial, h.trkDel]
    show (if a.trkDel then a.deleted ++ _ else a.deleted) = _
    unfold whenOn
    cases a.trkDel <;> simp
  removed := by rw [h.removed, h'.removed]; rfl
  calledIns := by rw [h.insCalls, h'.insCalls]; rfl
  calledRem := by rw [h.remCalls trivial, h'.remCalls trivial]; rfl
  tracks := by rw [h.trkIns, h.trkMod, h.trkDel, h.trkRem, h'.trkIns, h'.trkMod, h'.trkDel, h'.trkRem]; exact ⟨rfl, rfl, rfl, rfl⟩
  clears := by rw [h.lastInsert, h.lastModified, h'.lastInsert, h'.lastModified]; exact ⟨rfl, rfl⟩
  callbacks := by rw [h.hookIns, h.hookRem, h'.hookIns, h'.hookRem]; exact ⟨rfl, rfl⟩

theorem Ok.emptied {w : World V} {A : Nat → Option (Sto V)} {Q : List Nat} {I : List EId} (h : Ok w A Q I) {k : Nat}
    {s : SparseSet V} (hk : lookupK w.stos k = some s) {now : Nat} {s'} (hi : s.clear now = .ok s') :
    ∃ rows, Emptied now s s' rows := by
  obtain ⟨a, L, hA, ha⟩ := h.some_tab hk
  obtain ⟨s'', L', h1, h3⟩ := stoClear_ok ha now
  rw [hi] at h1
  cases h1
  exact ⟨_, emptied_of ha h3⟩

theorem delTab_own {a : Sto V} {e x : EId} {now : Nat} (hown : ∀ r', a.rows x.idx = some r' → r'.gen = x.gen) (r' : Row V)
    (h : (delTab e now a).rows x.idx = some r') : r'.gen = x.gen := by
  obtain ⟨r, h1, h2⟩ := delTab_shrinks e now a _ _ h
  rw [← hown r h1]; exact h2.symm

theorem deletedEach_of (now : Nat) : ∀ (es : List EId) {s s' : SparseSet V} {a : Sto V} {L}, AbsW s a L → (∀ e ∈ es, Valid e) →
    (∀ e ∈ es, ∀ r', a.rows e.idx = some r' → r'.gen = e.gen) → stoDeleteAll now es s = .ok s' →
    DeletedEach (es.map fun e => (e, now)) s s'
  | [], s, s', a, L, _, _, _, h => by cases h; exact .nil s
  | e :: es, s, s', a, L, ha, hv, hown, h => by
    obtain ⟨s1, L1, h1, h2⟩ := stoDelete_ok ha (hv e List.mem_cons_self) now
    simp only [stoDeleteAll, h1, bind, Except.bind] at h
    exact .cons (deleted_of ha h2 (hv e List.mem_cons_self).1 (hown e List.mem_cons_self))
      (deletedEach_of now es h2 (fun e he => hv e (List.mem_cons_of_mem _ he))
        (fun x hx r' hr => delTab_own (hown x (List.mem_cons_of_mem _ hx)) r' hr) h)

theorem had_of_observe {s : SparseSet V} {e : EId} (h : s.observe e = .ok none) : had s e = [] := by
  unfold SparseSet.observe at h
  unfold had SparseSet.get
  simp only [bind, Except.bind] at h ⊢
  split at h
  · cases h
  split at h
  · rfl
  · split at h <;> cases h

theorem _root_.Verif.WSpec.Emptied.after {s s1 s' : SparseSet V} {now t : Nat} {e : EId} {rows} (h : Emptied now s s1 rows)
    (hd : Deleted e t s1 s') (he : e.gen < 65535) : Emptied now s s' rows := by
  have hn : had s1 e = [] := had_of_observe (h.gone e he)
  have hw : ∀ {α : Type} (b : Bool), whenOn b ([] : List α) = [] := fun b => by cases b <;> rfl
  have h1 := hd.deleted
  have h2 := hd.calledRem
  rw [hn, List.map_nil, hw, List.append_nil] at h1 h2
  refine ⟨fun x hx => ?_, h.once, h.all, h1.trans h.deleted, hd.removed.trans h.removed, hd.calledIns.trans h.calledIns,
    h2.trans h.calledRem, ?_, ?_, ?_⟩
  · by_cases hxe : x = e
    · rw [hxe]; exact hd.gone
    · rw [hd.others x hxe hx]; exact h.gone x hx
  · obtain ⟨a1, a2, a3, a4⟩ := hd.tracks
    obtain ⟨b1, b2, b3, b4⟩ := h.tracks
    exact ⟨a1.trans b1, a2.trans b2, a3.trans b3, a4.trans b4⟩
  · exact ⟨hd.clears.1.trans h.clears.1, hd.clears.2.trans h.clears.2⟩
  · exact ⟨hd.callbacks.1.trans h.callbacks.1, hd.callbacks.2.trans h.callbacks.2⟩

theorem _root_.Verif.WSpec.Emptied.afterEach {s : SparseSet V} {now : Nat} {rows} {l : List (EId × Nat)} {s1 s' : SparseSet V}
    (h : DeletedEach l s1 s') : Emptied now s s1 rows → (∀ x ∈ l, x.1.gen < 65535) → Emptied now s s' rows := by
  induction h with
  | nil => exact fun h _ => h
  | cons h1 _ ih =>
    intro h hl
    exact ih (h.after h1 (hl _ List.mem_cons_self)) (fun x hx => hl x (List.mem_cons_of_mem _ hx))

theorem deleteEntity_each {w : World V} {A : Nat → Option (Sto V)} {Q : List Nat} {I : List EId} (hok : Ok w A Q I) {e : EId}
    (he : w.ents.isAlive e = true) {b w'} (h1 : w.deleteEntity e = .ok (b, w')) :
    w'.counter = w.counter + 1 ∧
    ∀ k s, lookupK w.stos k = some s → ∃ s', lookupK w'.stos k = some s' ∧ Deleted e w.counter s s' := by
  obtain ⟨w2, A', Q', h0, _⟩ := hok.deleteEntity (hok.ent.valid he)
  rw [he] at h0
  rw [h1] at h0
  cases h0
  unfold World.deleteEntity at h1
  simp only [bind, Except.bind] at h1
  split at h1
  · cases h1
  split at h1
  · split at h1
    · cases h1
    rename_i w2 hw2
    cases h1
    unfold World.strip at hw2
    simp only [bind, Except.bind] at hw2
    split at hw2
    · cases hw2
    rename_i l hl
    cases hw2
    refine ⟨rfl, fun k s hk => ?_⟩
    obtain ⟨s', h2, h3⟩ := mapStos_each hl k s hk
    exact ⟨s', h2, hok.deleted he hk h3⟩
  · cases h1

theorem deleteEntities_each : ∀ (es : List EId) {w w' : World V} {A : Nat → Option (Sto V)} {Q : List Nat} {I : List EId},
    Ok w A Q I → (∀ e ∈ es, w.ents.isAlive e = true) → es.Nodup → deleteEntities es w = .ok w' →
    ∀ k s, lookupK w.stos k = some s → ∃ s', lookupK w'.stos k = some s' ∧ DeletedEach (es.zipIdx w.counter) s s'
  | [], w, w', A, Q, I, _, _, _, h, k, s, hk => by cases h; exact ⟨s, hk, .nil s⟩
  | e :: es, w, w', A, Q, I, hok, hal, hn, h, k, s, hk => by
    have he := hal e List.mem_cons_self
    obtain ⟨w1, A1, Q1, h1, h2, h3, _⟩ := hok.deleteEntity (hok.ent.valid he)
    simp only [deleteEntities, h1, bind, Except.bind] at h
    rw [List.nodup_cons] at hn
    obtain ⟨hc, hd⟩ := deleteEntity_each hok he h1
    obtain ⟨s1, g1, g2⟩ := hd k s hk
    obtain ⟨s', g3, g4⟩ := deleteEntities_each es h2
      (fun x hx => by rw [h3 x (fun hxe => hn.1 (hxe ▸ hx))]; exact hal x (List.mem_cons_of_mem _ hx)) hn.2 h k s1 g1
    rw [hc] at g4
    exact ⟨s', g3, by rw [List.zipIdx_cons]; exact .cons g2 g4⟩

theorem deleteAnyCollect_each {now : Nat} : ∀ {ks : List Nat} {w w' : World V} {ids : List EId},
    deleteAnyCollect now ks w = .ok (ids, w') → ks.Nodup → ∀ k s, lookupK w.stos k = some s →
    ∃ s', lookupK w'.stos k = some s' ∧ if k ∈ ks then s.clear now = .ok s' else s' = s
  | [], w, w', ids, h, _, k, s, hk => by cases h; exact ⟨s, hk, by simp⟩
  | j :: ks, w, w', ids, h, hn, k, s, hk => by
    rw [List.nodup_cons] at hn
    simp only [deleteAnyCollect] at h
    cases hj : lookupK w.stos j with
    | none =>
      rw [hj] at h
      obtain ⟨s', h1, h2⟩ := deleteAnyCollect_each (ks := ks) h hn.2 k s hk
      have hkj : k ≠ j := fun h => by rw [h, hj] at hk; cases hk
      exact ⟨s', h1, by simpa [hkj] using h2⟩
    | some t =>
      rw [hj] at h
      simp only [bind, Except.bind] at h
      split at h
      · cases h
      rename_i t' ht
      split at h
      · cases h
      rename_i y hy
      obtain ⟨ids', w2⟩ := y
      cases h
      by_cases hkj : k = j
      · subst hkj
        rw [hj] at hk
        cases hk
        obtain ⟨s', h1, h2⟩ := deleteAnyCollect_each (ks := ks) hy hn.2 k t' (by rw [lookupK_put, if_pos rfl])
        rw [if_neg hn.1] at h2
        subst h2
        exact ⟨s', h1, by simp [ht]⟩
      · obtain ⟨s', h1, h2⟩ := deleteAnyCollect_each (ks := ks) hy hn.2 k s (by rw [lookupK_put, if_neg hkj]; exact hk)
        exact ⟨s', h1, by simpa [hkj] using h2⟩

end World
end Verif
