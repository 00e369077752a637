import Verif.Lemmas.TrackedRun

/-! A parallel run and the sequential run cannot be told apart by systems that track changes. -/
namespace Verif.Sched.Told
open Verif.Tracking

variable {V ε ρ : Type} {viewsOf : Who → List TypeInfo} {sysOf : Nat → Sys V ε}

/-! ## Views of the world without a clock -/

/-- The views of `i`: of the storages, and of what belongs to it. -/
def aug1 (i : Who) (B : List TypeInfo) : List TypeInfo :=
  B.map (fun b => { b with storage := 2 * b.storage, exclusive := b.exclusive || b.storage == allStorages, threadSafe := true })
    ++ (if B = [] then [] else [{ storage := own i, exclusive := true, threadSafe := true }])

def aug (viewsOf : Who → List TypeInfo) (is : List Who) : List TypeInfo := is.flatMap fun i => aug1 i (viewsOf i)

theorem aug1_mem {i : Who} {B : List TypeInfo} {c : TypeInfo} (h : c ∈ aug1 i B) :
    (∃ b ∈ B, c = { b with storage := 2 * b.storage, exclusive := b.exclusive || b.storage == allStorages, threadSafe := true })
    ∨ B ≠ [] ∧ c = { storage := own i, exclusive := true, threadSafe := true } := by
  rcases List.mem_append.mp h with h | h
  · obtain ⟨b, hb, rfl⟩ := List.mem_map.mp h
    exact .inl ⟨b, hb, rfl⟩
  · by_cases hB : B = []
    · rw [if_pos hB] at h; cases h
    · rw [if_neg hB] at h
      exact .inr ⟨hB, List.mem_singleton.mp h⟩

/-- `bs` allows what `i` does with the views `B`. -/
structure Augs (bs : List TypeInfo) (i : Who) (B : List TypeInfo) : Prop where
  views : ∀ {x}, Views B x → Reads bs (2 * x)
  mine : B ≠ [] → Writes bs (own i)
  excl : ∀ {x}, (∃ b ∈ B, b.exclusive = true ∧ b.storage = x) → Writes bs (2 * x)
  all : (∃ b ∈ B, b.storage = allStorages) → ∀ s, Writes bs s

theorem writes_reads {bs : List TypeInfo} {s : Nat} (h : Writes bs s) : Reads bs s := by
  obtain ⟨b, h1, _, h2⟩ := h
  exact ⟨b, h1, h2⟩

theorem Augs.own {bs : List TypeInfo} {i : Who} {B : List TypeInfo} (h : Augs bs i B) {x : Nat} (hx : Views B x) : Reads bs (own i) := by
  obtain ⟨b, hb, _⟩ := hx
  exact writes_reads (h.mine (List.ne_nil_of_mem hb))

theorem augs {is : List Who} {i : Who} (h : i ∈ is) : Augs (aug viewsOf is) i (viewsOf i) := by
  have mem : ∀ {b}, b ∈ viewsOf i →
      { b with storage := 2 * b.storage, exclusive := b.exclusive || b.storage == allStorages, threadSafe := true } ∈ aug viewsOf is :=
    fun hb => List.mem_flatMap.mpr ⟨i, h, List.mem_append_left _ (List.mem_map.mpr ⟨_, hb, rfl⟩)⟩
  refine ⟨?_, ?_, ?_, ?_⟩
  · rintro x ⟨b, hb, rfl⟩
    exact ⟨_, mem hb, .inl rfl⟩
  · intro hB
    refine ⟨{ storage := Told.own i, exclusive := true, threadSafe := true }, List.mem_flatMap.mpr
      ⟨i, h, List.mem_append_right _ ?_⟩, rfl, .inl rfl⟩
    rw [if_neg hB]; exact List.mem_singleton.mpr rfl
  · rintro x ⟨b, hb, h1, rfl⟩
    exact ⟨_, mem hb, by simp [h1], .inl rfl⟩
  · rintro ⟨b, hb, h1⟩ s
    exact ⟨_, mem hb, by simp [h1], .inr (by simp [h1, allStorages])⟩

section
variable {bs : List TypeInfo} {i : Who} {B : List TypeInfo} {a a' : Nat → AV V}

theorem aput_frame {x k : Nat} {v : V} (hx : Writes bs (2 * x)) {s : Nat} (hs : ¬ Writes bs s) : aput x k v a s = a s := by
  unfold aput
  rw [if_neg]
  rintro rfl
  exact hs hx

theorem aput_agree (x k : Nat) (v : V) (h : Agree bs a a') : Agree bs (aput x k v a) (aput x k v a') := by
  intro s hs
  unfold aput
  split
  · rw [h s hs]
  · exact h s hs

theorem afinish_frame (hA : Augs bs i B) {s : Nat} (hs : ¬ Writes bs s) : afinish (stores B) i a s = a s := by
  unfold afinish
  split
  · rename_i e
    subst e
    have hB : B = [] := Classical.byContradiction fun hB => hs (hA.mine hB)
    subst hB
    rfl
  · rfl

theorem afinish_agree (hA : Augs bs i B) (h : Agree bs a a') : Agree bs (afinish (stores B) i a) (afinish (stores B) i a') := by
  intro s hs
  unfold afinish
  split
  · rw [h s hs]
    have : (fun x k => if x ∈ stores B then ((a (2 * x)).cells k).2 else (a' s).seen x k)
        = fun x k => if x ∈ stores B then ((a' (2 * x)).cells k).2 else (a' s).seen x k := by
      funext x k
      split
      · rename_i hx
        rw [h _ (hA.views (mem_stores.mp hx))]
      · rfl
    rw [this]
  · exact h s hs

theorem aask_agree (hA : Augs bs i B) {x k : Nat} (hx : Views B x) (h : Agree bs a a') : aask i x k a = aask i x k a' := by
  unfold aask
  rw [h _ (hA.own hx), h _ (hA.views hx)]

theorem alook_frame (hA : Augs bs i B) {x k : Nat} (hx : Views B x) {s : Nat} (hs : ¬ Writes bs s) : alook i x k a s = a s := by
  unfold alook
  rw [if_neg]
  rintro rfl
  obtain ⟨b, hb, _⟩ := hx
  exact hs (hA.mine (List.ne_nil_of_mem hb))

theorem alook_agree (hA : Augs bs i B) {x k : Nat} (hx : Views B x) (h : Agree bs a a') : Agree bs (alook i x k a) (alook i x k a') := by
  intro s hs
  unfold alook
  rw [aask_agree hA hx h]
  split
  · rw [h s hs]
  · exact h s hs

theorem abody_within {t : Nat} (hA : Augs bs (.system t) B) {p : TProg V (Except ε Unit)} (h : p.Within B) :
    (abody (stores B) t p).Within bs := by
  induction h with
  | done r => exact .act (fun _ _ hs => afinish_frame hA hs) (fun _ _ h => afinish_agree hA h) (fun _ _ _ => rfl) (fun _ => .done r)
  | write hx _ ih =>
    exact .act (fun _ _ hs => aput_frame (hA.excl hx) hs) (fun _ _ h => aput_agree _ _ _ h) (fun _ _ _ => rfl) (fun _ => ih)
  | fresh hx _ _ ih =>
    exact .act (fun _ _ hs => aput_frame (hA.all hx _) hs) (fun _ _ h => aput_agree _ _ _ h) (fun _ _ _ => rfl) (fun _ => ih)
  | look hx _ ih =>
    refine .act (fun _ _ hs => alook_frame hA hx hs) (fun _ _ h => alook_agree hA hx h) ?_ (fun a => ih _ _)
    intro a a' h
    rw [aask_agree hA hx h, h _ (hA.views hx)]

theorem id_within {bs : List TypeInfo} {p : Prog (Nat → AV V) ε} (hp : p.Within bs) : Prog.Within bs (.act id fun _ => p) :=
  .act (fun _ _ _ => rfl) (fun _ _ h => h) (fun _ _ _ => rfl) (fun _ => hp)

theorem asys_within {t : Nat} (hA : Augs bs (.system t) B) {s : Sys V ε} (h : s.Within B) : (asys (stores B) t s).Within bs := by
  cases s with
  | plain r => exact .done r
  | tracked p => exact id_within (id_within (abody_within hA h))

theorem arunT_frame (hA : Augs bs i B) {p : TProg V ρ} (h : p.Within B) : ∀ (a : Nat → AV V) (s : Nat), ¬ Writes bs s →
    (arunT (stores B) i p a).1 s = a s := by
  induction h with
  | done r => exact fun _ _ hs => afinish_frame hA hs
  | write hx _ ih => exact fun a s hs => (ih _ s hs).trans (aput_frame (hA.excl hx) hs)
  | fresh hx _ _ ih => exact fun a s hs => (ih _ s hs).trans (aput_frame (hA.all hx _) hs)
  | look hx _ ih => exact fun a s hs => (ih _ _ _ s hs).trans (alook_frame hA hx hs)

theorem arunT_agree (hA : Augs bs i B) {p : TProg V ρ} (h : p.Within B) : ∀ (a a' : Nat → AV V), Agree bs a a' →
    (arunT (stores B) i p a).2 = (arunT (stores B) i p a').2 ∧ Agree bs (arunT (stores B) i p a).1 (arunT (stores B) i p a').1 := by
  induction h with
  | done r => exact fun _ _ h => ⟨rfl, afinish_agree hA h⟩
  | write hx _ ih => exact fun a a' h => ih _ _ (aput_agree _ _ _ h)
  | fresh hx _ _ ih => exact fun a a' h => ih _ _ (aput_agree _ _ _ h)
  | look hx _ ih =>
    intro a a' h
    unfold arunT
    rw [aask_agree hA hx h, h _ (hA.views hx)]
    exact ih _ _ _ _ (alook_agree hA hx h)

end

/-! ## Conditions -/

/-- The condition, on the world without a clock. -/
def TCond.acond (viewsOf : Who → List TypeInfo) : TCond V ε → Cond (Nat → AV V) ε
  | .plain r => fun a => (a, r)
  | .one n p => arunT (stores (viewsOf (.condition n))) (.condition n) p
  | .both a b => bothC (a.acond viewsOf) (b.acond viewsOf)

theorem acond_frame {bs : List TypeInfo} : ∀ (c : TCond V ε), c.Within viewsOf → (∀ i ∈ c.parts, Augs bs i (viewsOf i)) →
    ∀ (a : Nat → AV V) (s : Nat), ¬ Writes bs s → (c.acond viewsOf a).1 s = a s
  | .plain _, _, _, _, _, _ => rfl
  | .one _ _, hw, hA, a, s, hs => arunT_frame (hA _ (List.mem_singleton.mpr rfl)) hw a s hs
  | .both b c, hw, hA, a, s, hs => by
    have h1 := acond_frame b hw.1 (fun i hi => hA i (List.mem_append_left _ hi)) a s hs
    have h2 := acond_frame c hw.2 (fun i hi => hA i (List.mem_append_right _ hi))
    show (bothC (b.acond viewsOf) (c.acond viewsOf) a).1 s = a s
    unfold bothC
    rcases e : b.acond viewsOf a with ⟨a1, er | (_ | _)⟩ <;> rw [e] at h1
    · exact h1
    · exact h1
    · exact (h2 a1 s hs).trans h1

theorem acond_agree {bs : List TypeInfo} : ∀ (c : TCond V ε), c.Within viewsOf → (∀ i ∈ c.parts, Augs bs i (viewsOf i)) →
    ∀ (a a' : Nat → AV V), Agree bs a a' →
    (c.acond viewsOf a).2 = (c.acond viewsOf a').2 ∧ Agree bs (c.acond viewsOf a).1 (c.acond viewsOf a').1
  | .plain _, _, _, _, _, h => ⟨rfl, h⟩
  | .one _ _, hw, hA, a, a', h => arunT_agree (hA _ (List.mem_singleton.mpr rfl)) hw a a' h
  | .both b c, hw, hA, a, a', h => by
    have h1 := acond_agree b hw.1 (fun i hi => hA i (List.mem_append_left _ hi)) a a' h
    have h2 := acond_agree c hw.2 (fun i hi => hA i (List.mem_append_right _ hi))
    show (bothC (b.acond viewsOf) (c.acond viewsOf) a).2 = (bothC (b.acond viewsOf) (c.acond viewsOf) a').2
      ∧ Agree bs (bothC (b.acond viewsOf) (c.acond viewsOf) a).1 (bothC (b.acond viewsOf) (c.acond viewsOf) a').1
    unfold bothC
    rcases e : b.acond viewsOf a with ⟨a1, r1⟩
    rcases e' : b.acond viewsOf a' with ⟨a1', r1'⟩
    rw [e, e'] at h1
    obtain ⟨h1, h1'⟩ := h1
    dsimp only at h1 h1'
    subst h1
    rcases r1 with er | (_ | _)
    · exact ⟨rfl, h1'⟩
    · exact ⟨rfl, h1'⟩
    · exact h2 a1 a1' h1'

theorem During.look {i : Who} {last cur : Nat} {w : TW V} (h : During viewsOf i last cur w) {x k : Nat} (hx : Views (viewsOf i) x) :
    During viewsOf i last cur (w.look i x k last cur) := by
  refine ⟨h.stamps, h.lasts, h.mine, h.others, ?_, ?_, ?_⟩
  · intro j hj y m hv
    show w.last j < (w.cell y m).2 ↔ Changed j y m (.told i x k _ :: w.log)
    rw [changed_told]
    exact h.right j hj y m hv
  · intro y m hv
    refine ⟨(h.here y m hv).1, ?_⟩
    show last < (w.cell y m).2 ↔ Changed i y m (.told i x k _ :: w.log)
    rw [changed_told]
    exact (h.here y m hv).2
  · refine exact_told h.exact ?_
    show isWithin (w.cell x k).2 last cur = true ↔ _
    rw [within_iff (h.here x k hx).1]
    exact (h.here x k hx).2

theorem Rest.start {w : TW V} (h : Rest viewsOf w) (i : Who) : During viewsOf i (w.last i) w.counter (w.tick.swap i w.counter) := by
  refine ⟨?_, ?_, ?_, ?_, ?_, ?_, h.exact⟩
  · exact fun x k => Nat.lt_succ_of_lt (h.stamps x k)
  · intro j
    show (if j = i then w.counter else w.last j) < w.counter + 1
    split
    · exact Nat.lt_succ_self _
    · exact Nat.lt_succ_of_lt (h.lasts j)
  · show (if i = i then w.counter else _) = w.counter
    exact if_pos rfl
  · intro j hj
    show (if j = i then w.counter else w.last j) < w.counter
    rw [if_neg hj]; exact h.lasts j
  · intro j hj x k hv
    show (if j = i then w.counter else w.last j) < (w.cell x k).2 ↔ Changed j x k w.log
    rw [if_neg hj]; exact h.right j x k hv
  · intro x k hv
    exact ⟨Nat.le_of_lt (h.stamps x k), h.right _ x k hv⟩

/-- A run that nothing interrupts. -/
theorem arunT_same (d : V) (i : Who) (last cur : Nat) (hlast : last < cur) : ∀ (p : TProg V ρ) (w : TW V),
    p.Within (viewsOf i) → During viewsOf i last cur w →
    arunT (stores (viewsOf i)) i p (abs viewsOf d w) = (abs viewsOf d (runT i last cur p w).1, (runT i last cur p w).2)
  | .done r, w, _, _ => by
    show (afinish _ i (abs viewsOf d w), r) = _
    rw [← abs_finish]
    rfl
  | .write x k v p, w, hw, h => by
    cases hw with
    | write hx hp =>
      have hc : cur < w.counter := by rw [← h.mine]; exact h.lasts _
      have := arunT_same d i last cur hlast p _ hp (h.put hlast (x := x) (k := k) (v := v) (Nat.le_refl _) hc fun _ => rfl)
      rw [abs_put] at this
      exact this
  | .fresh x k v p, w, hw, h => by
    cases hw with
    | fresh _ hx hp =>
      have hc : cur < w.counter := by rw [← h.mine]; exact h.lasts _
      have := arunT_same d i last cur hlast p _ hp
        (h.tick.put hlast (k := k) (v := v) (Nat.le_of_lt hc) (Nat.lt_succ_self _) fun hv => absurd hv hx)
      rw [abs_put] at this
      exact this
  | .look x k p, w, hw, h => by
    cases hw with
    | look hx hp =>
      have := arunT_same d i last cur hlast (p (w.cell x k).1 (w.ask x k last cur)) (w.look i x k last cur) (hp _ _) (h.look hx)
      have hask := ask_abs d hx (h.here x k hx).1 (h.here x k hx).2
      have hl : abs viewsOf d (w.look i x k last cur) = alook i x k (abs viewsOf d w) := abs_told d w i x k _ hask
      rw [hl] at this
      show arunT _ i (p ((abs viewsOf d w (2 * x)).cells k).1 (aask i x k (abs viewsOf d w))) (alook i x k (abs viewsOf d w)) = _
      rw [value_abs, ← hask, this]
      rfl

theorem acond_abs (d : V) : ∀ (c : TCond V ε), c.Within viewsOf → ∀ {w : TW V}, Rest viewsOf w →
    c.acond viewsOf (abs viewsOf d w) = (abs viewsOf d (c.cond w).1, (c.cond w).2) ∧ Rest viewsOf (c.cond w).1
  | .plain _, _, _, h => ⟨rfl, h⟩
  | .one n p, hp, w, h => ⟨arunT_same d (.condition n) _ _ (h.lasts _) p _ hp (h.start _), condition_rest h hp⟩
  | .both a b, hp, w, h => by
    obtain ⟨h1, h2⟩ := acond_abs d a hp.1 h
    show bothC (a.acond viewsOf) (b.acond viewsOf) (abs viewsOf d w) = (abs viewsOf d (bothC a.cond b.cond w).1, (bothC a.cond b.cond w).2)
      ∧ Rest viewsOf (bothC a.cond b.cond w).1
    unfold bothC
    rw [h1]
    rcases e : a.cond w with ⟨w1, er | (_ | _)⟩ <;> rw [e] at h2
    · exact ⟨rfl, h2⟩
    · exact ⟨rfl, h2⟩
    · exact acond_abs d b hp.2 h2

theorem within_isCond : ∀ (c : TCond V ε), c.Within viewsOf → IsCond viewsOf c.cond
  | .plain r, _ => .plain r
  | .one _ _, h => .one h
  | .both a b, h => .both (within_isCond a h.1) (within_isCond b h.2)

theorem isCond_made {c : Cond (TW V) ε} (h : IsCond viewsOf c) : ∃ t : TCond V ε, c = t.cond ∧ t.Within viewsOf := by
  induction h with
  | plain r => exact ⟨.plain r, rfl, trivial⟩
  | one h => exact ⟨.one _ _, rfl, h⟩
  | both _ _ iha ihb =>
    obtain ⟨a, rfl, ha⟩ := iha
    obtain ⟨b, rfl, hb⟩ := ihb
    exact ⟨.both a b, rfl, ha, hb⟩

/-- `made` tells what the condition is made of. -/
def Made (viewsOf : Who → List TypeInfo) (made : Cond (TW V) ε → TCond V ε) (c : Cond (TW V) ε) : Prop :=
  c = (made c).cond ∧ (made c).Within viewsOf

/-- The condition, on the world without a clock. -/
def acond (viewsOf : Who → List TypeInfo) (made : Cond (TW V) ε → TCond V ε) (c : Cond (TW V) ε) : Cond (Nat → AV V) ε :=
  (made c).acond viewsOf

variable {made : Cond (TW V) ε → TCond V ε}

theorem Made.isCond {c : Cond (TW V) ε} (h : Made viewsOf made c) : IsCond viewsOf c := by
  rw [h.1]
  exact within_isCond _ h.2

theorem Made.abs (d : V) {c : Cond (TW V) ε} (h : Made viewsOf made c) {w : TW V} (hw : Rest viewsOf w) :
    acond viewsOf made c (Told.abs viewsOf d w) = (Told.abs viewsOf d (c w).1, (c w).2) := by
  have := (acond_abs d (made c) h.2 hw).1
  rw [← h.1] at this
  exact this

theorem acond_within {bs : List TypeInfo} {c : Option (Cond (TW V) ε)} (hc : ∀ d, c = some d → Made viewsOf made d
    ∧ ∀ i ∈ (made d).parts, Augs bs i (viewsOf i)) : CondWithin bs (c.map (acond viewsOf made)) := by
  cases c with
  | none => exact ⟨fun _ _ _ => rfl, fun _ _ _ => rfl, fun _ _ h => h⟩
  | some c =>
    obtain ⟨h1, h2⟩ := hc c rfl
    exact ⟨acond_frame _ h1.2 h2, fun a a' h => (acond_agree _ h1.2 h2 a a' h).1, fun a a' h => (acond_agree _ h1.2 h2 a a' h).2⟩

/-! ## One batch -/

/-- The batches on the world without a clock. -/
def abatches (viewsOf : Who → List TypeInfo) (made : Cond (TW V) ε → TCond V ε) (b : Batches (TW V) ε) : Batches (Nat → AV V) ε :=
  { parallel := b.parallel, parallelRunIf := b.parallelRunIf, sequential := b.sequential, sequentialRunIf := b.sequentialRunIf
    workloadRunIf := b.workloadRunIf.map (acond viewsOf made), systemsRunIf := b.systemsRunIf.map (acond viewsOf made) }

theorem shouldRun_same (d : V) {b : Batches (TW V) ε} {names : List Label} {i r : Option Nat} {c : Option (Cond (TW V) ε)}
    (hc : b.cond r = some c) (hI : ∀ e, c = some e → Made viewsOf made e) {w w' : TW V} {res} (hw : Rest viewsOf w)
    (h : shouldRun b names i r w = .ok (w', res)) :
    shouldRun (abatches viewsOf made b) names i r (abs viewsOf d w) = .ok (abs viewsOf d w', res) := by
  unfold shouldRun at h ⊢
  cases r with
  | none => cases h; rfl
  | some k =>
    have hc' : b.systemsRunIf[k]?.map some = some c := hc
    dsimp only at h ⊢
    unfold abatches
    dsimp only
    rw [List.getElem?_map]
    cases hk : b.systemsRunIf[k]? with
    | none => rw [hk] at h; cases h
    | some e =>
      rw [hk] at h hc'
      cases hc'
      have hr := (hI e rfl).abs d hw
      simp only [Option.map_some]
      rw [hr]
      dsimp only at h ⊢
      rcases he : e w with ⟨w1, er | y⟩
      · rw [he] at h
        dsimp only at h ⊢
        split at h
        · cases h
        · split at h
          · cases h
          · rename_i hn
            cases h
            rfl
      · rw [he] at h
        cases h
        rfl

theorem conditions_same (d : V) {b : Batches (TW V) ε} {names : List Label} : ∀ (ps : List (Nat × Option Nat)) {w w' : TW V} {res},
    (∀ p ∈ ps, ∃ c, b.cond p.2 = some c ∧ ∀ e, c = some e → Made viewsOf made e) → Rest viewsOf w →
    conditions b names ps w = .ok (w', res) → conditions (abatches viewsOf made b) names ps (abs viewsOf d w) = .ok (abs viewsOf d w', res)
  | [], _, _, _, _, _, h => by unfold conditions at h; cases h; rfl
  | p :: ps, w, w', res, hc, hw, h => by
    obtain ⟨c, hc1, hc2⟩ := hc p (by simp)
    have ih := fun w w' res => conditions_same d (names := names) ps (w := w) (w' := w') (res := res)
      (fun q hq => hc q (List.mem_cons_of_mem _ hq))
    have rest := fun {w w' res} hw h => shouldRun_rest (names := names) (i := some p.1) (w := w) (w' := w') (res := res) hc1
      (fun e he => (hc2 e he).isCond) hw h
    unfold conditions at h ⊢
    split at h
    · cases h
    · rename_i h1
      cases h
      rw [shouldRun_same d hc1 hc2 hw h1]
    · rename_i h1
      rw [shouldRun_same d hc1 hc2 hw h1]
      have hw1 := rest hw h1
      split at h
      · cases h
      · rename_i h2; cases h; dsimp only; rw [ih _ _ _ hw1 h2]
      · rename_i h2; cases h; dsimp only; rw [ih _ _ _ hw1 h2]

section
variable {α : Type} {val : Nat → α}

theorem job_cond {b : Batches (TW V) ε} {table : List α} {x r} {L : List (WSys (TW V) ε)} (h : BatchOf val b table x r L)
    (hc : ∀ s ∈ L, ∀ c, s.runIf = some c → Made viewsOf made c) {i : Nat} {k : Option Nat}
    (hm : b.job table i k ∈ b.batchJobs table x r) : ∃ c, b.cond k = some c ∧ ∀ e, c = some e → Made viewsOf made e := by
  rw [h.jobs] at hm
  obtain ⟨s, hs, he⟩ := List.mem_map.mp hm
  exact ⟨_, (job_some he.symm).2, fun e he => hc s hs e he⟩

theorem batchConditions_same (d : V) {b : Batches (TW V) ε} {names : List Label} {table : List α} {x r} {L : List (WSys (TW V) ε)}
    (h : BatchOf val b table x r L) (hc : ∀ s ∈ L, ∀ c, s.runIf = some c → Made viewsOf made c) {w w' : TW V} {res} (hw : Rest viewsOf w)
    (he : batchConditions b names x r w = .ok (w', res)) :
    batchConditions (abatches viewsOf made b) names x r (abs viewsOf d w) = .ok (abs viewsOf d w', res) := by
  have hm : ∃ c, b.cond r.1 = some c ∧ ∀ e, c = some e → Made viewsOf made e := by
    cases hx : x.1 with
    | none => exact ⟨none, by rw [h.main hx]; rfl, fun e he => by cases he⟩
    | some i =>
      refine job_cond h hc (i := i) ?_
      unfold Batches.batchJobs
      rw [hx]
      simp
  have hp : ∀ p ∈ x.2.zip r.2, ∃ c, b.cond p.2 = some c ∧ ∀ e, c = some e → Made viewsOf made e := by
    intro p hp
    refine job_cond h hc (i := p.1) ?_
    unfold Batches.batchJobs
    exact List.mem_append_right _ (List.mem_map.mpr ⟨p, hp, rfl⟩)
  obtain ⟨c, hc1, hc2⟩ := hm
  unfold batchConditions at he ⊢
  split at he
  · cases he
  · rename_i h1; cases he; rw [shouldRun_same d hc1 hc2 hw h1]
  · rename_i h1
    rw [shouldRun_same d hc1 hc2 hw h1]
    have hw1 := shouldRun_rest hc1 (fun e he => (hc2 e he).isCond) hw h1
    split at he
    · cases he
    · rename_i h2; cases he; dsimp only; rw [conditions_same d _ hp hw1 h2]
    · rename_i h2; cases he; dsimp only; rw [conditions_same d _ hp hw1 h2]

end

section
variable {W W' : Type}

theorem task_same {progs : List (Prog W ε)} {progs' : List (Prog W' ε)} (hl : progs.length = progs'.length) {m : Bool} {i : Nat}
    {t : Task W ε} (h : task progs m i = .ok t) : ∃ t' : Task W' ε, task progs' m i = .ok t' ∧ t'.index = t.index ∧ t'.main = t.main := by
  unfold task at h ⊢
  split at h
  · rename_i p hp
    cases h
    have : i < progs'.length := by rw [← hl]; exact (List.getElem?_eq_some_iff.mp hp).1
    rw [List.getElem?_eq_getElem this]
    exact ⟨_, rfl, rfl, rfl⟩
  · cases h

theorem poolTasks_same {progs : List (Prog W ε)} {progs' : List (Prog W' ε)} (hl : progs.length = progs'.length) :
    ∀ (l : List (Nat × Bool)) {ts : List (Task W ε)}, poolTasks progs l = .ok ts → ∃ ts' : List (Task W' ε),
      poolTasks progs' l = .ok ts' ∧ ts'.map (fun t => (t.index, t.main)) = ts.map fun t => (t.index, t.main)
  | [], ts, h => by unfold poolTasks at h; cases h; exact ⟨[], rfl, rfl⟩
  | (i, false) :: l, ts, h => by
    unfold poolTasks at h ⊢
    exact poolTasks_same hl l h
  | (i, true) :: l, ts, h => by
    unfold poolTasks at h ⊢
    simp only [bind, Except.bind] at h ⊢
    split at h
    · cases h
    · rename_i t ht
      split at h
      · cases h
      · rename_i ts1 hts
        cases h
        obtain ⟨t', k1, k2, k3⟩ := task_same hl ht
        obtain ⟨ts', k4, k5⟩ := poolTasks_same hl l hts
        rw [k1, k4]
        exact ⟨_, rfl, by rw [List.map_cons, List.map_cons, k5, k2, k3]⟩

theorem tasks_same {progs : List (Prog W ε)} {progs' : List (Prog W' ε)} (hl : progs.length = progs'.length)
    {x : Option Nat × List (Nat × Bool)} {ts : List (Task W ε)} (h : tasks progs x = .ok ts) : ∃ ts' : List (Task W' ε),
      tasks progs' x = .ok ts' ∧ ts'.map (fun t => (t.index, t.main)) = ts.map fun t => (t.index, t.main) := by
  unfold tasks at h ⊢
  split at h
  · exact poolTasks_same hl _ h
  · rename_i i hx
    simp only [bind, Except.bind] at h ⊢
    split at h
    · cases h
    · rename_i t ht
      split at h
      · cases h
      · rename_i ts1 hts
        cases h
        obtain ⟨t', k1, k2, k3⟩ := task_same hl ht
        obtain ⟨ts', k4, k5⟩ := poolTasks_same hl _ hts
        rw [k1, k4]
        exact ⟨_, rfl, by rw [List.map_cons, List.map_cons, k5, k2, k3]⟩

end

theorem Pool.counterpart {c0 : Nat} {L : List Nat} {w : TW V} {ts : List (Task (TW V) ε)} {as : List (Task (Nat → AV V) ε)}
    (h : Pool viewsOf c0 L w ts as) {a : Task (Nat → AV V) ε} (ha : a ∈ as) :
    ∃ t ∈ ts, t.index = a.index ∧ t.main = a.main ∧ (t.status = .skipped ↔ a.status = .skipped)
      ∧ ∀ r, t.status = .ended r ↔ a.status = .ended r := by
  obtain ⟨n, hn, rfl⟩ := List.getElem_of_mem ha
  have hn' : n < ts.length := by rw [h.len, ← h.alen]; exact hn
  have hnL : n < L.length := by rw [← h.alen]; exact hn
  obtain ⟨ph, h1, _⟩ := h.task n ts[n] as[n] L[n] (List.getElem?_eq_getElem hn') (List.getElem?_eq_getElem hn) (List.getElem?_eq_getElem hnL)
  have hs := congrArg (fun l : List (Nat × Bool) => l[n]?) h.same
  simp only [List.getElem?_map, List.getElem?_eq_getElem hn', List.getElem?_eq_getElem hn] at hs
  have hs := Option.some.inj hs
  injection hs with i1 i2
  exact ⟨ts[n], List.getElem_mem hn', i1.symm, i2.symm, h1.over.1, h1.over.2⟩

theorem Pool.counterpart' {c0 : Nat} {L : List Nat} {w : TW V} {ts : List (Task (TW V) ε)} {as : List (Task (Nat → AV V) ε)}
    (h : Pool viewsOf c0 L w ts as) {t : Task (TW V) ε} (ht : t ∈ ts) :
    ∃ a ∈ as, t.index = a.index ∧ t.main = a.main ∧ ∀ r, t.status = .ended r ↔ a.status = .ended r := by
  obtain ⟨n, hn', rfl⟩ := List.getElem_of_mem ht
  have hn : n < as.length := by rw [h.alen, ← h.len]; exact hn'
  have hnL : n < L.length := by rw [← h.alen]; exact hn
  obtain ⟨ph, h1, _⟩ := h.task n ts[n] as[n] L[n] (List.getElem?_eq_getElem hn') (List.getElem?_eq_getElem hn) (List.getElem?_eq_getElem hnL)
  have hs := congrArg (fun l : List (Nat × Bool) => l[n]?) h.same
  simp only [List.getElem?_map, List.getElem?_eq_getElem hn', List.getElem?_eq_getElem hn] at hs
  have hs := Option.some.inj hs
  injection hs with i1 i2
  exact ⟨as[n], List.getElem_mem hn, i1.symm, i2.symm, h1.over.2⟩

/-- What system `t` does on the world without a clock. -/
def aprog (viewsOf : Who → List TypeInfo) (sysOf : Nat → Sys V ε) (t : Nat) : Prog (Nat → AV V) ε :=
  asys (stores (viewsOf (.system t))) t (sysOf t)

theorem runBatch_same (d : V) {b : Batches (TW V) ε} {ids : List Nat} {names x r} {L : List (WSys (TW V) ε)}
    (h : BatchOf (fun t => t) b ids x r L) (hc : ∀ s ∈ L, ∀ c, s.runIf = some c → IsCond viewsOf c)
    (hcr : ∀ s ∈ L, ∀ c, s.runIf = some c → Made viewsOf made c) (hL : (L.map (·.typeId)).Pairwise (Apart viewsOf))
    (hin : ∀ s ∈ L, (sysOf s.typeId).Within (viewsOf (.system s.typeId))) {w w' : TW V} {res}
    (hw : Rest viewsOf w) (hr : RunBatch b (tprogs sysOf ids) names x r w w' res) : Rest viewsOf w' ∧
      RunBatch (abatches viewsOf made b) (ids.map (aprog viewsOf sysOf)) names x r (abs viewsOf d w) (abs viewsOf d w') res := by
  cases hr with
  | condition h1 => exact ⟨batchConditions_rest h hc hw h1, .condition (batchConditions_same d h hcr hw h1)⟩
  | systems h1 h2 h3 h4 h5 h6 =>
    rename_i w1 m flags s ts ts'
    have hw1 := batchConditions_rest h hc hw h1
    have hst := tasks_start h3
    obtain ⟨Z, hZ, hlen, hZi⟩ := h.started (hst.sub.trans (split_sub h2))
    rw [List.length_map] at hlen
    obtain ⟨as, ha1, ha2⟩ := tasks_same (progs' := ids.map (aprog viewsOf sysOf)) (by unfold tprogs; simp) h3
    have hast := tasks_start ha1
    have hpool := Pool.init (L := Z.map (·.typeId)) hw1 (ts := ts) (as := as) (by rw [List.length_map]; exact hlen) ha2 (by
      intro n t a u ht ha hu
      rw [List.getElem?_map] at hu
      cases hz : Z[n]? with
      | none => rw [hz] at hu; cases hu
      | some z =>
        rw [hz] at hu
        cases hu
        obtain ⟨hm, hid⟩ := hZi n t.index z (by rw [List.getElem?_map, ht]; rfl) hz
        have hidx : a.index = t.index := by
          have := congrArg (fun l : List (Nat × Bool) => l[n]?) ha2
          simp only [List.getElem?_map, ht, ha] at this
          exact congrArg Prod.fst (Option.some.inj this)
        obtain ⟨p, hp, hpt⟩ := hst.todo t (List.mem_of_getElem? ht)
        obtain ⟨q, hq, hqt⟩ := hast.todo a (List.mem_of_getElem? ha)
        unfold tprogs at hp
        rw [List.getElem?_map, hid] at hp
        rw [hidx, List.getElem?_map, hid] at hq
        cases hp
        cases hq
        exact ⟨sysOf z.typeId, hin z hm, hpt, hqt⟩)
    obtain ⟨as', hf, hsteps⟩ := hpool.steps d (hL.sublist (hZ.map _)) h4
    refine ⟨hf.final h5, .systems (batchConditions_same d h hcr hw h1) h2 ha1 hsteps ?_ ?_⟩
    · intro a ha
      obtain ⟨t, ht, _, _, g1, g2⟩ := hf.counterpart ha
      rcases h5 t ht with e | ⟨r, e⟩
      · exact .inl (g1.mp e)
      · exact .inr ⟨r, (g2 r).mp e⟩
    · cases h6 with
      | ok hall =>
        refine .ok fun a ha e hae => ?_
        obtain ⟨t, ht, _, _, _, g2⟩ := hf.counterpart ha
        exact hall t ht e ((g2 _).mpr hae)
      | main ht hm he hn =>
        obtain ⟨a, ha, g1, g2, g3⟩ := hf.counterpart' ht
        exact .main ha (by rw [← g2]; exact hm) ((g3 _).mp he) (by rw [← g1]; exact hn)
      | pool hall ht he hn =>
        obtain ⟨a, ha, g1, g2, g3⟩ := hf.counterpart' ht
        refine .pool (fun a' ha' e hm hae => ?_) ha ((g3 _).mp he) (by rw [← g1]; exact hn)
        obtain ⟨t', ht', _, k2, _, k3⟩ := hf.counterpart ha'
        exact hall t' ht' e (by rw [k2]; exact hm) ((k3 _).mpr hae)

/-! ## All batches -/

theorem runPar_same (d : V) {wl : Workload (TW V) ε} (ht : Tracks viewsOf sysOf wl) (hrc : CondsApart viewsOf made wl) {b : Batches (TW V) ε}
    {ids names} {xs} (hxs : ∀ x ∈ xs, ∃ L, BatchOf (fun t => t) b ids x.1 x.2 L ∧ (∀ s ∈ L, s ∈ wl.systems)
      ∧ (L.map (·.typeId)).Pairwise (Apart viewsOf)) {w w' : TW V} {res} (hw : Rest viewsOf w)
    (hr : RunPar b (tprogs sysOf ids) names xs w w' res) : Rest viewsOf w' ∧
      RunPar (abatches viewsOf made b) (ids.map (aprog viewsOf sysOf)) names xs (abs viewsOf d w) (abs viewsOf d w') res := by
  have one : ∀ {x}, x ∈ xs → ∀ {s s' : TW V} {res}, Rest viewsOf s → RunBatch b (tprogs sysOf ids) names x.1 x.2 s s' res →
      Rest viewsOf s' ∧ RunBatch (abatches viewsOf made b) (ids.map (aprog viewsOf sysOf)) names x.1 x.2 (abs viewsOf d s) (abs viewsOf d s') res := by
    intro x hx s s' res hs hr
    obtain ⟨L, h1, h2, h3⟩ := hxs x hx
    refine runBatch_same d h1 (fun t ht' => ht.cond t (h2 t ht')) (fun t ht' => hrc.cond t (h2 t ht')) h3 (fun t ht' => ?_) hs hr
    rw [← ht.views t (h2 t ht')]
    exact ht.within t (h2 t ht')
  clear hxs
  induction hr with
  | nil => exact ⟨hw, .nil⟩
  | stop h =>
    obtain ⟨h1, h2⟩ := one (by simp) hw h
    exact ⟨h1, .stop h2⟩
  | next h _ ih =>
    obtain ⟨h1, h2⟩ := one (by simp) hw h
    obtain ⟨h3, h4⟩ := ih h1 fun hx => one (List.mem_cons_of_mem _ hx)
    exact ⟨h3, .next h2 h4⟩

/-! ## The workload on the world without a clock -/

def awsys (viewsOf : Who → List TypeInfo) (sysOf : Nat → Sys V ε) (made : Cond (TW V) ε → TCond V ε) (s : WSys (TW V) ε) : WSys (Nat → AV V) ε :=
  { typeId := s.typeId, name := s.name, fn := (aprog viewsOf sysOf s.typeId).run, borrows := aug viewsOf (partsOf made s)
    tracking := s.tracking, runIf := s.runIf.map (acond viewsOf made), tags := s.tags, beforeAll := s.beforeAll, afterAll := s.afterAll
    after := s.after, before := s.before, uid := s.uid, reqIn := s.reqIn, reqBefore := s.reqBefore, reqAfter := s.reqAfter }

def aworkload (viewsOf : Who → List TypeInfo) (sysOf : Nat → Sys V ε) (made : Cond (TW V) ε → TCond V ε) (w : Workload (TW V) ε) :
    Workload (Nat → AV V) ε :=
  { name := w.name, tags := w.tags, systems := w.systems.map (awsys viewsOf sysOf made), runIf := w.runIf.map (acond viewsOf made)
    beforeAll := w.beforeAll, afterAll := w.afterAll, overwrittenName := w.overwrittenName, reqBefore := w.reqBefore
    reqAfter := w.reqAfter, barriers := w.barriers }

theorem aug1_clash {i j : Who} {A B : List TypeInfo} {a b : TypeInfo} (ha : a ∈ aug1 i A) (hb : b ∈ aug1 j B)
    (h : Clash a b) : i = j ∨ ∃ a ∈ A, ∃ b ∈ B, Overlap a b := by
  have ex : ∀ {L : List TypeInfo}, L ≠ [] → ∃ x, x ∈ L := fun h => List.exists_mem_of_ne_nil _ h
  have hi := own_odd i
  have hj := own_odd j
  rcases aug1_mem ha with ⟨a', ha', rfl⟩ | ⟨hA, rfl⟩ <;> rcases aug1_mem hb with ⟨b', hb', rfl⟩ | ⟨hB, rfl⟩
  · refine .inr ⟨a', ha', b', hb', ?_⟩
    cases h with
    | share h1 h2 =>
      dsimp only at h1 h2
      simp only [Bool.or_eq_true, beq_iff_eq] at h2
      rcases h2 with (h2 | h2) | (h2 | h2)
      · exact .share (by omega) (.inl h2)
      · exact .allLeft h2
      · exact .share (by omega) (.inr h2)
      · exact .allRight h2
    | thread h1 h2 => cases h1
    | allLeft h1 => exact .allLeft (by unfold allStorages at h1 ⊢; dsimp only at h1; omega)
    | allRight h1 => exact .allRight (by unfold allStorages at h1 ⊢; dsimp only at h1; omega)
  · obtain ⟨b', hb'⟩ := ex hB
    refine .inr ⟨a', ha', b', hb', ?_⟩
    cases h with
    | share h1 _ => exact absurd h1 (by dsimp only; omega)
    | thread _ h2 => cases h2
    | allLeft h1 => exact .allLeft (by unfold allStorages at h1 ⊢; dsimp only at h1; omega)
    | allRight h1 => exact absurd h1 (by unfold allStorages; dsimp only; omega)
  · obtain ⟨a', ha'⟩ := ex hA
    refine .inr ⟨a', ha', b', hb', ?_⟩
    cases h with
    | share h1 _ => exact absurd h1 (by dsimp only; omega)
    | thread h1 _ => cases h1
    | allLeft h1 => exact absurd h1 (by unfold allStorages; dsimp only; omega)
    | allRight h1 => exact .allRight (by unfold allStorages at h1 ⊢; dsimp only at h1; omega)
  · refine .inl ?_
    cases h with
    | share h1 _ => exact own_inj h1
    | thread h1 _ => cases h1
    | allLeft h1 => exact absurd h1 (by unfold allStorages; dsimp only; omega)
    | allRight h1 => exact absurd h1 (by unfold allStorages; dsimp only; omega)

theorem disciplined {w : Workload (TW V) ε} (ht : Tracks viewsOf sysOf w) (hrc : CondsApart viewsOf made w) :
    Disciplined (aprog viewsOf sysOf) (aworkload viewsOf sysOf made w) := by
  refine ⟨?_, ?_, ?_⟩ <;> intro s hs' <;> obtain ⟨s, hs, rfl⟩ := List.mem_map.mp hs'
  · rfl
  · show (aprog viewsOf sysOf s.typeId).Within (aug viewsOf (partsOf made s))
    unfold aprog
    exact asys_within (augs List.mem_cons_self) (by rw [← ht.views s hs]; exact ht.within s hs)
  · refine acond_within fun c hc => ⟨hrc.cond s hs c hc, fun i hi => augs (List.mem_cons_of_mem _ ?_)⟩
    rw [hc]
    exact hi

theorem get_map_some {α β : Type} {f : α → β} {l : List α} {n : Nat} {y : β} (h : (l.map f)[n]? = some y) :
    ∃ x, l[n]? = some x ∧ y = f x := by
  rw [List.getElem?_map] at h
  cases hx : l[n]? with
  | none => rw [hx] at h; cases h
  | some x => rw [hx] at h; cases h; exact ⟨x, rfl, rfl⟩

theorem aschedule {w : Workload (TW V) ε} (ht : Tracks viewsOf sysOf w) (hrc : CondsApart viewsOf made w) {plan} (h : Schedule w plan) :
    Schedule (aworkload viewsOf sysOf made w) plan := by
  refine ⟨?_, h.batches, ?_, ?_, ?_⟩
  · show (plan.map (·.1)).Perm (List.range (w.systems.map _).length)
    rw [List.length_map]
    exact h.once
  · intro a b k x y hne ha hb hx hy hconf
    obtain ⟨s, hs, rfl⟩ := get_map_some hx
    obtain ⟨t, ht', rfl⟩ := get_map_some hy
    have hid : s.typeId ≠ t.typeId := by
      have hone := List.pairwise_iff_getElem.mp (List.pairwise_map.mp ht.once)
      obtain ⟨la, ea⟩ := List.getElem?_eq_some_iff.mp hs
      obtain ⟨lb, eb⟩ := List.getElem?_eq_some_iff.mp ht'
      rcases Nat.lt_or_gt_of_ne hne with hlt | hlt
      · have := hone a b la lb hlt
        rw [ea, eb] at this
        exact this
      · have := hone b a lb la hlt
        rw [ea, eb] at this
        exact this.symm
    obtain ⟨p, hp, q, hq, hc⟩ := hconf
    refine h.apart hne ha hb hs ht' (Classical.byContradiction fun hno => ?_)
    obtain ⟨i, hi, hp⟩ := List.mem_flatMap.mp hp
    obtain ⟨j, hj, hq⟩ := List.mem_flatMap.mp hq
    obtain ⟨h1, h2⟩ := hrc.apart s (List.mem_of_getElem? hs) t (List.mem_of_getElem? ht') hid hno i hi j hj
    rcases aug1_clash hp hq hc with h | ⟨a, ha, b, hb, h⟩
    · exact h1 h
    · exact h2 a ha b hb h
  · intro a b he
    refine h.explicit ?_
    cases he with
    | beforeAll h1 h2 h3 h4 h5 =>
      obtain ⟨s, hs, rfl⟩ := get_map_some h1
      obtain ⟨t, ht', rfl⟩ := get_map_some h2
      exact .beforeAll hs ht' h3 h4 h5
    | afterAll h1 h2 h3 h4 h5 =>
      obtain ⟨s, hs, rfl⟩ := get_map_some h1
      obtain ⟨t, ht', rfl⟩ := get_map_some h2
      exact .afterAll hs ht' h3 h4 h5
    | barrier h1 h2 h3 h4 =>
      refine .barrier h1 h2 h3 ?_
      have : b < (w.systems.map (awsys viewsOf sysOf made)).length := h4
      rwa [List.length_map] at this
  · intro a b he
    obtain ⟨hab, x, y, hx, hy, h1, h2⟩ := he
    obtain ⟨s, hs, rfl⟩ := get_map_some hx
    obtain ⟨t, ht', rfl⟩ := get_map_some hy
    exact h.implicit ⟨hab, s, t, hs, ht', h1, h2⟩

section
variable {α : Type}

/-- The job, on the world without a clock. -/
def ajob (viewsOf : Who → List TypeInfo) (made : Cond (TW V) ε → TCond V ε) (j : Option (α × Option (Cond (TW V) ε))) :
    Option (α × Option (Cond (Nat → AV V) ε)) := j.map fun p => (p.1, p.2.map (acond viewsOf made))

theorem job_abs (b : Batches (TW V) ε) (table : List α) (i : Nat) (r : Option Nat) :
    (abatches viewsOf made b).job table i r = ajob viewsOf made (b.job table i r) := by
  unfold Batches.job ajob
  have hc : (abatches viewsOf made b).cond r = (b.cond r).map (Option.map (acond viewsOf made)) := by
    unfold Batches.cond
    cases r with
    | none => rfl
    | some k =>
      unfold abatches
      dsimp only
      rw [List.getElem?_map]
      cases b.systemsRunIf[k]? <;> rfl
  rw [hc]
  cases table[i]? with
  | none => rfl
  | some f => cases b.cond r <;> rfl

theorem batchJobs_abs (b : Batches (TW V) ε) (table : List α) (x r) :
    (abatches viewsOf made b).batchJobs table x r = (b.batchJobs table x r).map (ajob viewsOf made) := by
  unfold Batches.batchJobs
  rw [List.map_append, List.map_map]
  congr 1
  · cases x.1 with
    | none => rfl
    | some i => simp only [job_abs, List.map_cons, List.map_nil]
  · apply List.map_congr_left
    intro p _
    exact job_abs b table p.1 p.2

theorem at_abs {w : Workload (TW V) ε} (val : Nat → α) (i : Nat) :
    (aworkload viewsOf sysOf made w).at (fun s => val s.typeId) i = ajob viewsOf made (w.at (fun s => val s.typeId) i) := by
  unfold Workload.at ajob aworkload
  dsimp only
  rw [List.getElem?_map]
  cases w.systems[i]? <;> rfl

theorem arealises {w : Workload (TW V) ε} (ht : Tracks viewsOf sysOf w) (hrc : CondsApart viewsOf made w) {b : Batches (TW V) ε} {table : List α} {val : Nat → α} {plan}
    (h : Realises table (fun s => val s.typeId) b w plan) :
    Realises table (fun s => val s.typeId) (abatches viewsOf made b) (aworkload viewsOf sysOf made w) plan := by
  refine ⟨aschedule ht hrc h.schedule, congrArg (Option.map (acond viewsOf made)) h.cond, ?_, h.bound, h.lens, ?_, h.fit⟩
  · have := congrArg (List.map (ajob viewsOf made)) h.seq
    unfold Batches.seqJobs at this ⊢
    rw [List.map_map, List.map_map] at this
    refine Eq.trans ?_ (this.trans ?_)
    · apply List.map_congr_left
      intro p _
      exact job_abs b table p.1 p.2
    · apply List.map_congr_left
      intro p _
      exact (at_abs val p.1).symm
  · intro k hk
    obtain ⟨jobs, h1, h2⟩ := h.par k hk
    refine ⟨jobs.map (ajob viewsOf made), ?_, ?_⟩
    · unfold Batches.parJobs at h1 ⊢
      rw [List.getElem?_map] at h1 ⊢
      show ((b.parallel.zip b.parallelRunIf)[k]?).map _ = _
      cases hx : (b.parallel.zip b.parallelRunIf)[k]? with
      | none => rw [hx] at h1; cases h1
      | some x =>
        rw [hx] at h1
        cases h1
        exact congrArg some (batchJobs_abs b table x.1 x.2)
    · have := h2.map (ajob viewsOf made)
      rw [List.map_map] at this
      refine this.trans (List.Perm.of_eq ?_)
      apply List.map_congr_left
      intro p _
      exact (at_abs val p.1).symm

end

/-! ## The sequential run -/

theorem body_run (t last cur : Nat) : ∀ (p : TProg V (Except ε Unit)) (w : TW V),
    (body t last cur p).run w = runT (.system t) last cur p w
  | .done _, _ => rfl
  | .write _ _ _ p, _ => body_run t last cur p _
  | .fresh _ _ _ p, _ => body_run t last cur p _
  | .look _ _ p, _ => body_run t last cur (p _ _) _

theorem abody_run (vs : List Nat) (t : Nat) : ∀ (p : TProg V (Except ε Unit)) (a : Nat → AV V),
    (abody vs t p).run a = arunT vs (.system t) p a
  | .done _, _ => rfl
  | .write _ _ _ p, _ => abody_run vs t p _
  | .fresh _ _ _ p, _ => abody_run vs t p _
  | .look _ _ p, _ => abody_run vs t (p _ _) _

theorem sys_same (d : V) {t : Nat} {w : TW V} (hs : (sysOf t).Within (viewsOf (.system t))) (h : Rest viewsOf w) :
    (aprog viewsOf sysOf t).run (abs viewsOf d w)
      = (abs viewsOf d (((sysOf t).prog t).run w).1, (((sysOf t).prog t).run w).2)
    ∧ Rest viewsOf (((sysOf t).prog t).run w).1 := by
  unfold aprog
  cases e : sysOf t with
  | plain r => exact ⟨rfl, h⟩
  | tracked p =>
    rw [e] at hs
    have hrun : ((Sys.tracked p).prog t).run w
        = runT (.system t) (w.last (.system t)) w.counter p (w.tick.swap (.system t) w.counter) := body_run t _ _ p _
    rw [hrun]
    exact ⟨(abody_run _ t p _).trans (arunT_same d (.system t) _ _ (h.lasts _) p _ hs (h.start _)),
      runT_rest _ _ _ (h.lasts _) p _ hs (h.start _)⟩

/-- The jobs of these systems. -/
def jobOf {W : Type} (s : WSys W ε) : NamedJob W ε := ((s.name, s.fn), s.runIf)

theorem runJobs_same (d : V) : ∀ (l : List (WSys (TW V) ε)), (∀ s ∈ l, s.fn = ((sysOf s.typeId).prog s.typeId).run
      ∧ (sysOf s.typeId).Within (viewsOf (.system s.typeId)) ∧ ∀ c, s.runIf = some c → Made viewsOf made c) →
    ∀ {w : TW V}, Rest viewsOf w → runJobs (l.map fun s => jobOf (awsys viewsOf sysOf made s)) (abs viewsOf d w)
      = (abs viewsOf d (runJobs (l.map jobOf) w).1, (runJobs (l.map jobOf) w).2) ∧ Rest viewsOf (runJobs (l.map jobOf) w).1
  | [], _, _, hw => ⟨rfl, hw⟩
  | s :: l, hl, w, hw => by
    obtain ⟨hfn, hin, hc⟩ := hl s (by simp)
    have ih := fun {w : TW V} => runJobs_same d l (fun s hs => hl s (List.mem_cons_of_mem _ hs)) (w := w)
    have h1 : runJob (jobOf (awsys viewsOf sysOf made s)) (abs viewsOf d w)
        = (abs viewsOf d (runJob (jobOf s) w).1, (runJob (jobOf s) w).2) ∧ Rest viewsOf (runJob (jobOf s) w).1 := by
      have hev : evalC (s.runIf.map (acond viewsOf made)) (abs viewsOf d w) = (abs viewsOf d (evalC s.runIf w).1, (evalC s.runIf w).2)
          ∧ Rest viewsOf (evalC s.runIf w).1 := by
        cases hr : s.runIf with
        | none => exact ⟨rfl, hw⟩
        | some c => exact ⟨(hc c hr).abs d hw, isCond_rest (hc c hr).isCond hw⟩
      unfold runJob jobOf awsys
      dsimp only
      rw [hev.1]
      rcases he : evalC s.runIf w with ⟨w1, er | (_ | _)⟩
      · rw [he] at hev; exact ⟨rfl, hev.2⟩
      · rw [he] at hev; exact ⟨rfl, hev.2⟩
      · rw [he] at hev
        have hrun := sys_same d hin hev.2
        dsimp only
        rw [hrun.1, hfn]
        have hrest := hrun.2
        dsimp only at hrest ⊢
        rcases hp : ((sysOf s.typeId).prog s.typeId).run w1 with ⟨w2, e2 | u2⟩ <;> (rw [hp] at hrest; exact ⟨rfl, hrest⟩)
    simp only [List.map_cons, runJobs]
    rw [h1.1]
    have hrest := h1.2
    rcases hj : runJob (jobOf s) w with ⟨w1, e1 | u1⟩
    · rw [hj] at hrest
      exact ⟨rfl, hrest⟩
    · rw [hj] at hrest
      exact ih hrest

theorem inOrder_jobs {W : Type} (w : Workload W ε) (plan : List (Nat × Nat)) :
    w.inOrder plan = (plan.filterMap fun p => w.systems[p.1]?).map jobOf := by
  unfold Workload.inOrder
  rw [List.map_filterMap]
  rfl

theorem aworkload_inOrder (w : Workload (TW V) ε) (plan : List (Nat × Nat)) :
    (aworkload viewsOf sysOf made w).inOrder plan
      = (plan.filterMap fun p => w.systems[p.1]?).map fun s => jobOf (awsys viewsOf sysOf made s) := by
  rw [inOrder_jobs, List.map_filterMap, List.map_filterMap]
  apply filterMap_congr
  intro p _
  show Option.map _ ((w.systems.map _)[p.1]?) = _
  rw [List.getElem?_map]
  cases w.systems[p.1]? <;> rfl

/-- What `abs` keeps is all a system can tell. -/
theorem alike_of_abs {d : V} {a b : TW V} (h : abs viewsOf d a = abs viewsOf d b) : Alike viewsOf a b := by
  refine ⟨?_, ?_, ?_⟩
  · intro x k
    rw [← value_abs d a, h, value_abs]
  · intro i
    have := congrFun h (own i)
    rw [abs_own, abs_own] at this
    injection this
  · intro i x k hx
    rw [changed_seen k (mem_stores.mpr hx), changed_seen k (mem_stores.mpr hx)]
    have h1 := congrFun h (own i)
    rw [abs_own, abs_own] at h1
    injection h1 with _ h1 _
    have h2 := congrFun h (2 * x)
    rw [abs_even, abs_even] at h2
    injection h2 with h2 _ _
    have h1 := congrFun (congrFun h1 x) k
    have h2 := congrArg Prod.snd (congrFun h2 k)
    dsimp only at h1 h2
    rw [h1, h2]

theorem par_same (d : V) {wl : Workload (TW V) ε} (hb : Built wl) (ht : Tracks viewsOf sysOf wl) (hrc : CondsApart viewsOf made wl)
    (hfn : ∀ s ∈ wl.systems, s.fn = ((sysOf s.typeId).prog s.typeId).run) {sch : Scheduler (TW V) ε} {c : Created (TW V) ε}
    (h : createWorkload sch wl = .ok c) {ids : List Nat} {names : List Label} {nameOf : Nat → Label}
    (hids : c.sch.Lists ids fun t => t) (hn : c.sch.Lists names nameOf) {w w' v : TW V} {res} (hw : Rest viewsOf w)
    (hv : Rest viewsOf v) (hwv : abs viewsOf d w = abs viewsOf d v)
    (hr : RunPar c.batches (tprogs sysOf ids) names (c.batches.parallel.zip c.batches.parallelRunIf) w w' res) :
    Rest viewsOf w' ∧ Rest viewsOf (runJobs (wl.inOrder c.plan) v).1
    ∧ (res = .ok () ↔ (runJobs (wl.inOrder c.plan) v).2 = .ok ())
    ∧ (res = .ok () → abs viewsOf d w' = abs viewsOf d (runJobs (wl.inOrder c.plan) v).1) := by
  have hreal := created_realises hb h hids (val := fun s => s.typeId) (fun _ _ => rfl)
  obtain ⟨hw', hpar⟩ := runPar_same d ht hrc (realises_of (val := fun t => t) ht hreal) hw hr
  have hap : c.sch.Lists (ids.map (aprog viewsOf sysOf)) (aprog viewsOf sysOf) := by
    intro p hp
    rw [List.getElem?_map, hids p hp]
    rfl
  have hzip : c.sch.Lists (names.zip (ids.map (aprog viewsOf sysOf))) (fun t => (nameOf t, aprog viewsOf sysOf t)) :=
    fun p hp => List.getElem?_zip_eq_some.mpr ⟨hn p hp, hap p hp⟩
  have hrealz := created_realises hb h hzip (val := fun s => (nameOf s.typeId, aprog viewsOf sysOf s.typeId)) (fun _ _ => rfl)
  have har := arealises (val := fun t => (nameOf t, aprog viewsOf sysOf t)) ht hrc hrealz
  have hd := disciplined ht hrc
  have hbs := realises_batches hd har
  have ho := batches_inOrder hd har.schedule.batches har.bound
  obtain ⟨k1, k2⟩ := par_vs_seq hbs hpar
  rw [ho, aworkload_inOrder] at k1 k2
  obtain ⟨hseq, hv'⟩ := runJobs_same (viewsOf := viewsOf) (sysOf := sysOf) (made := made) d (c.plan.filterMap fun p => wl.systems[p.1]?) (by
    intro s hs
    obtain ⟨p, _, hp⟩ := List.mem_filterMap.mp hs
    have hm := List.mem_of_getElem? hp
    exact ⟨hfn s hm, by rw [← ht.views s hm]; exact ht.within s hm, hrc.cond s hm⟩) hv
  rw [hwv, hseq] at k1 k2
  rw [inOrder_jobs]
  refine ⟨hw', hv', ?_⟩
  rcases res with e | u
  · obtain ⟨_, w'', e', k3⟩ := k2 e rfl
    have := congrArg Prod.snd k3
    dsimp only at this
    rw [this]
    exact ⟨⟨(fun h => by cases h), (fun h => by cases h)⟩, (fun h => by cases h)⟩
  · have k3 := k1 rfl
    have e1 := congrArg Prod.fst k3
    have e2 := congrArg Prod.snd k3
    dsimp only at e1 e2
    rw [e2]
    exact ⟨⟨fun _ => rfl, fun _ => rfl⟩, fun _ => e1.symm⟩

/-- With the condition of the workload. -/
theorem run_same (d : V) {wl : Workload (TW V) ε} {sch : Scheduler (TW V) ε} {c : Created (TW V) ε} {ids : List Nat}
    {names : List Label} (h : Added viewsOf sysOf wl sch c ids names) {l : Label} {w w' v : TW V} {res} (hw : Rest viewsOf w)
    (hv : Rest viewsOf v) (hwv : abs viewsOf d w = abs viewsOf d v)
    (hr : RunWorkload c.batches (tprogs sysOf ids) names l w w' res) :
    Rest viewsOf w' ∧ Rest viewsOf (runAll l wl.runIf (wl.inOrder c.plan) v).1
    ∧ (res = .ok () ↔ (runAll l wl.runIf (wl.inOrder c.plan) v).2 = .ok ())
    ∧ (res = .ok () → abs viewsOf d w' = abs viewsOf d (runAll l wl.runIf (wl.inOrder c.plan) v).1) := by
  obtain ⟨nameOf, hn⟩ := h.names
  obtain ⟨made, hmade⟩ := h.conds
  have hreal := created_realises h.built h.created h.ids (val := fun s => s.typeId) (fun _ _ => rfl)
  have hc := hreal.cond
  have same : ∀ {e}, c.batches.workloadRunIf = some e → (e w).2 = (e v).2 ∧ abs viewsOf d (e w).1 = abs viewsOf d (e v).1 := by
    intro e he
    obtain ⟨t, rfl, ht⟩ := isCond_made (h.tracks.condAll e (by rw [← hc]; exact he))
    have h1 := (acond_abs d t ht hw).1
    have h2 := (acond_abs d t ht hv).1
    rw [hwv, h2] at h1
    injection h1 with h1 h1'
    exact ⟨h1'.symm, h1.symm⟩
  have rest : ∀ {e}, c.batches.workloadRunIf = some e → ∀ {u}, Rest viewsOf u → Rest viewsOf (e u).1 :=
    fun he _ hu => isCond_rest (h.tracks.condAll _ (by rw [← hc]; exact he)) hu
  have main := fun {w v : TW V} hw hv hwv hr => par_same (w := w) (w' := w') (v := v) (res := res) d h.built h.tracks hmade h.fn h.created
    h.ids hn hw hv hwv hr
  unfold runAll
  rw [← hc]
  cases hr with
  | plain hnone hr =>
    rw [hnone]
    exact main hw hv hwv hr
  | conditionErr hsome he =>
    rename_i e er
    obtain ⟨h1, h1'⟩ := same hsome
    have h2 := rest hsome hw
    have h3 := rest hsome hv
    rw [hsome]
    unfold evalC
    dsimp only
    rcases hev : e v with ⟨v1, r⟩
    rw [he] at h1 h2
    rw [hev] at h1 h3
    dsimp only at h1
    subst h1
    exact ⟨h2, h3, ⟨(fun h => by cases h), (fun h => by cases h)⟩, (fun h => by cases h)⟩
  | conditionFalse hsome he =>
    rename_i e
    obtain ⟨h1, h1'⟩ := same hsome
    have h2 := rest hsome hw
    have h3 := rest hsome hv
    rw [hsome]
    unfold evalC
    dsimp only
    rcases hev : e v with ⟨v1, r⟩
    rw [he] at h1 h2 h1'
    rw [hev] at h1 h3 h1'
    dsimp only at h1
    subst h1
    exact ⟨h2, h3, ⟨fun _ => rfl, fun _ => rfl⟩, fun _ => h1'⟩
  | conditionTrue hsome he hr =>
    rename_i w1 e
    obtain ⟨h1, h1'⟩ := same hsome
    have h2 := rest hsome hw
    have h3 := rest hsome hv
    rw [hsome]
    unfold evalC
    dsimp only
    rcases hev : e v with ⟨v1, r⟩
    rw [he] at h1 h2 h1'
    rw [hev] at h1 h3 h1'
    dsimp only at h1
    subst h1
    exact main h2 h3 h1' hr

theorem twins_same (d : V) {a b : TW V} (h : Twins viewsOf sysOf a b) :
    Rest viewsOf a ∧ Rest viewsOf b ∧ abs viewsOf d a = abs viewsOf d b := by
  induction h with
  | new v => exact ⟨rest_new v, rest_new v, rfl⟩
  | outside x k v _ ih => exact ⟨rest_fresh ih.1 x k v, rest_fresh ih.2.1 x k v, by rw [abs_fresh, abs_fresh, ih.2.2]⟩
  | run _ hadd hr ih =>
    obtain ⟨h1, h2, _, h4⟩ := run_same d hadd ih.1 ih.2.1 ih.2.2 hr
    exact ⟨h1, h2, h4 rfl⟩

end Verif.Sched.Told
