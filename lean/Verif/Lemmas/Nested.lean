import Verif.Spec.Nested
import Verif.Props.Workloads
import Verif.Props.ParallelAny

/-!
# Lemmas for workloads inside workloads
-/
namespace Verif.Sched

variable {V ε : Type}

/-- The program never changes what `rs` gives access to. -/
inductive Prog.Spare (rs : List TypeInfo) : Prog (Nat → V) ε → Prop
  | done (r) : Prog.Spare rs (.done r)
  | act {u k} : (∀ w x, Reads rs x → u w x = w x) → (∀ w, Prog.Spare rs (k w)) → Prog.Spare rs (.act u k)

theorem Prog.Within.spare {rs bs : List TypeInfo} {p : Prog (Nat → V) ε} (h : p.Within bs)
    (ha : ∀ x, Reads rs x → ¬ Writes bs x) : p.Spare rs := by
  induction h with
  | done r => exact .done r
  | act h1 _ _ _ ih => exact .act (fun w x hx => h1 w x (ha x hx)) ih

theorem Prog.Spare.run {rs : List TypeInfo} {p : Prog (Nat → V) ε} (h : p.Spare rs) (w : Nat → V) :
    Agree rs (p.run w).1 w := by
  induction h generalizing w with
  | done r => intro x _; rfl
  | @act u k h1 _ ih =>
    intro x hx
    show ((k w).run (u w)).1 x = w x
    rw [ih w (u w) x hx, h1 w x hx]

/-- What is left of a task never changes what `rs` gives access to. -/
def SpareTask (rs : List TypeInfo) (t : Task (Nat → V) ε) : Prop :=
  ∀ p, (t.status = .todo p ∨ t.status = .going p) → p.Spare rs

theorem step_spare {rs : List TypeInfo} {w w' : Nat → V} {ts ts' : List (Task (Nat → V) ε)} (hs : Step w ts w' ts')
    (h : ∀ t ∈ ts, SpareTask rs t) : Agree rs w' w ∧ ∀ t ∈ ts', SpareTask rs t := by
  cases hs with
  | start i p h1 h2 =>
    refine ⟨fun x _ => rfl, fun t ht => ?_⟩
    rcases List.mem_or_eq_of_mem_set ht with ht | rfl
    · exact h t ht
    · rintro q (hq | hq)
      · cases hq
      · cases hq; exact h _ (List.mem_of_getElem? h1) _ (.inl h2)
  | act i u k h1 h2 =>
    have hp := h _ (List.mem_of_getElem? h1) _ (.inr h2)
    cases hp with
    | act g1 g2 =>
      refine ⟨fun x hx => g1 w x hx, fun t ht => ?_⟩
      rcases List.mem_or_eq_of_mem_set ht with ht | rfl
      · exact h t ht
      · rintro q (hq | hq)
        · cases hq
        · cases hq; exact g2 _
  | finish i r h1 h2 =>
    refine ⟨fun x _ => rfl, fun t ht => ?_⟩
    rcases List.mem_or_eq_of_mem_set ht with ht | rfl
    · exact h t ht
    · rintro q (hq | hq) <;> cases hq
  | skip i p e h1 h2 =>
    refine ⟨fun x _ => rfl, fun t ht => ?_⟩
    rcases List.mem_or_eq_of_mem_set ht with ht | rfl
    · exact h t ht
    · rintro q (hq | hq) <;> cases hq

theorem steps_spare {rs : List TypeInfo} {w w' : Nat → V} {ts ts' : List (Task (Nat → V) ε)} (hs : Steps w ts w' ts')
    (h : ∀ t ∈ ts, SpareTask rs t) : Agree rs w' w ∧ ∀ t ∈ ts', SpareTask rs t := by
  induction hs with
  | refl => exact ⟨fun x _ => rfl, h⟩
  | tail _ hs ih =>
    obtain ⟨h1, h2⟩ := ih
    obtain ⟨h3, h4⟩ := step_spare hs h2
    exact ⟨fun x hx => (h3 x hx).trans (h1 x hx), h4⟩

/-- Two conditions that do the same as long as what `rs` gives access to is as in `w0`, and leave it so. -/
def CondAlike (rs : List TypeInfo) (w0 : Nat → V) (c c' : Option (Cond (Nat → V) ε)) : Prop :=
  ∀ w, Agree rs w w0 → evalC c w = evalC c' w ∧ Agree rs (evalC c w).1 w0

theorem CondAlike.of_spares {rs : List TypeInfo} {c : Option (Cond (Nat → V) ε)} (h : Spares rs c) (w0 : Nat → V) :
    CondAlike rs w0 c c := fun w hw => ⟨rfl, fun x hx => (h w x hx).trans (hw x hx)⟩

theorem CondAlike.both {rs : List TypeInfo} {w0 : Nat → V} {a a' b b' : Option (Cond (Nat → V) ε)} {c c' : Option (Cond (Nat → V) ε)}
    (ha : CondAlike rs w0 a a') (hb : CondAlike rs w0 b b') (hc : evalC c = bothC (evalC a) (evalC b))
    (hc' : evalC c' = bothC (evalC a') (evalC b')) : CondAlike rs w0 c c' := by
  intro w hw
  obtain ⟨h1, h2⟩ := ha w hw
  rw [hc, hc']
  unfold bothC
  rw [← h1]
  rcases he : evalC a w with ⟨w1, e | (_ | _)⟩
  · rw [he] at h2; exact ⟨rfl, h2⟩
  · rw [he] at h2; exact ⟨rfl, h2⟩
  · rw [he] at h2; exact hb w1 h2

theorem frozen_alike {rs : List TypeInfo} {c : Cond (Nat → V) ε} (hc : ReadsOnly rs c) (w0 : Nat → V) :
    CondAlike rs w0 (some c) (some (frozen c w0)) := by
  intro w hw
  refine ⟨Prod.ext (hc.same w) (hc.out w w0 hw), fun x hx => ?_⟩
  show (c w).1 x = _
  rw [hc.same w]
  exact hw x hx

/-- Two systems that differ only in their conditions, which do the same as long as what `rs` gives access to is as in `w0`. -/
structure SysAlike (rs : List TypeInfo) (progOf : Nat → Prog (Nat → V) ε) (w0 : Nat → V) (s s' : WSys (Nat → V) ε) : Prop where
  type : s'.typeId = s.typeId
  name : s'.name = s.name
  fn : s'.fn = s.fn
  run : s.fn = (progOf s.typeId).run
  spare : (progOf s.typeId).Spare rs
  cond : CondAlike rs w0 s.runIf s'.runIf

/-- The same for workloads. -/
structure WAlike (rs : List TypeInfo) (progOf : Nat → Prog (Nat → V) ε) (w0 : Nat → V) (w w' : Workload (Nat → V) ε) : Prop where
  pairs : ∃ P : List (WSys (Nat → V) ε × WSys (Nat → V) ε), P.map (·.1) = w.systems ∧ P.map (·.2) = w'.systems
    ∧ ∀ p ∈ P, SysAlike rs progOf w0 p.1 p.2
  cond : CondAlike rs w0 w.runIf w'.runIf

section
variable {rs : List TypeInfo} {progOf : Nat → Prog (Nat → V) ε} {w0 : Nat → V}

theorem leaves_alike {w : Workload (Nat → V) ε} (h : w.Leaves rs progOf) : WAlike rs progOf w0 w w := by
  refine ⟨⟨w.systems.map fun s => (s, s), by rw [List.map_map]; exact List.map_id _, by rw [List.map_map]; exact List.map_id _, ?_⟩, .of_spares h.condAll _⟩
  intro p hp
  obtain ⟨s, hs, rfl⟩ := List.mem_map.mp hp
  exact ⟨rfl, rfl, rfl, h.fn s hs, (h.within s hs).spare (h.apart s hs), .of_spares (h.cond s hs) _⟩

theorem propagate_alike {w w' : Workload (Nat → V) ε} (h : WAlike rs progOf w0 w w') (n m : Nat) :
    ∃ P : List (WSys (Nat → V) ε × WSys (Nat → V) ε), P.map (·.1) = w.propagate.systems.map (fun s => { s with uid := s.uid + n })
      ∧ P.map (·.2) = w'.propagate.systems.map (fun s => { s with uid := s.uid + m }) ∧ ∀ p ∈ P, SysAlike rs progOf w0 p.1 p.2 := by
  obtain ⟨P, h1, h2, h3⟩ := h.pairs
  refine ⟨P.map fun p =>
    ({ p.1 with
        runIf := Workload.propagateRunIf p.1.runIf w.runIf, tags := p.1.tags ++ w.tags, beforeAll := extendLabels p.1.beforeAll w.beforeAll,
        afterAll := extendLabels p.1.afterAll w.afterAll, reqBefore := extendLabels p.1.reqBefore w.reqBefore,
        reqAfter := extendLabels p.1.reqAfter w.reqAfter, uid := p.1.uid + n },
     { p.2 with
        runIf := Workload.propagateRunIf p.2.runIf w'.runIf, tags := p.2.tags ++ w'.tags, beforeAll := extendLabels p.2.beforeAll w'.beforeAll,
        afterAll := extendLabels p.2.afterAll w'.afterAll, reqBefore := extendLabels p.2.reqBefore w'.reqBefore,
        reqAfter := extendLabels p.2.reqAfter w'.reqAfter, uid := p.2.uid + m }), ?_, ?_, ?_⟩
  · show _ = (w.systems.map _).map _
    rw [← h1]
    simp only [List.map_map]
    rfl
  · show _ = (w'.systems.map _).map _
    rw [← h2]
    simp only [List.map_map]
    rfl
  · intro p hp
    obtain ⟨q, hq, rfl⟩ := List.mem_map.mp hp
    have k := h3 q hq
    exact ⟨k.type, k.name, k.fn, k.run, k.spare, h.cond.both k.cond (propagateRunIf_eval _ _) (propagateRunIf_eval _ _)⟩

theorem merge_alike {a a' b b' : Workload (Nat → V) ε} (ha : WAlike rs progOf w0 a a') (hb : WAlike rs progOf w0 b b') :
    WAlike rs progOf w0 (a.merge b) (a'.merge b') := by
  refine ⟨?_, fun w hw => ⟨rfl, hw⟩⟩
  obtain ⟨P, p1, p2, p3⟩ := propagate_alike ha 0 0
  obtain ⟨Q, q1, q2, q3⟩ := propagate_alike hb a.systems.length a'.systems.length
  have id0 : ∀ L : List (WSys (Nat → V) ε), L.map (fun s => { s with uid := s.uid + 0 }) = L := fun L => List.map_id L
  refine ⟨P ++ Q, ?_, ?_, ?_⟩
  · rw [merge_systems, List.map_append, p1, q1, id0]
  · rw [merge_systems, List.map_append, p2, q2, id0]
  · intro p hp
    rcases List.mem_append.mp hp with hp | hp
    · exact p3 p hp
    · exact q3 p hp

theorem runIf_alike {a a' : Workload (Nat → V) ε} (ha : WAlike rs progOf w0 a a') {c c' : Cond (Nat → V) ε}
    (hc : CondAlike rs w0 (some c) (some c')) : WAlike rs progOf w0 (a.addRunIf c) (a'.addRunIf c') :=
  ⟨ha.pairs, ha.cond.both hc (C59_workload_run_if _ _) (C59_workload_run_if _ _)⟩

theorem around_alike {F : Workload (Nat → V) ε → Workload (Nat → V) ε} (hF : Around rs progOf F) {a a' : Workload (Nat → V) ε}
    (ha : WAlike rs progOf w0 a a') : WAlike rs progOf w0 (F a) (F a') := by
  induction hF with
  | here => exact ha
  | left b hb _ ih => exact merge_alike ih (leaves_alike hb)
  | right b hb _ ih => exact merge_alike (leaves_alike hb) ih
  | runIf c hc _ ih => exact runIf_alike ih (.of_spares hc _)
  | labels hg _ ih =>
    obtain ⟨P, p1, p2, p3⟩ := ih.pairs
    refine ⟨⟨P, p1.trans (hg _).1.symm, p2.trans (hg _).1.symm, p3⟩, ?_⟩
    rw [(hg _).2, (hg _).2]
    exact ih.cond

/-! ## Parallel runs -/

variable {nameOf : Nat → Label} {Q : List (WSys (Nat → V) ε × WSys (Nat → V) ε)}

theorem group_alike {w : Workload (Nat → V) ε} {P : List (WSys (Nat → V) ε × WSys (Nat → V) ε)}
    {f : WSys (Nat → V) ε × WSys (Nat → V) ε → WSys (Nat → V) ε} (h : P.map f = w.systems) (plan : List (Nat × Nat)) (k : Nat) :
    w.group plan k = ((plan.filter fun p => p.2 == k).filterMap fun p => P[p.1]?).map f := by
  unfold Workload.group
  rw [← h, List.map_filterMap]
  congr 1
  funext p
  rw [List.getElem?_map]

theorem ask_alike : ∀ (Q : List (WSys (Nat → V) ε × WSys (Nat → V) ε)), (∀ p ∈ Q, SysAlike rs progOf w0 p.1 p.2) → ∀ w, Agree rs w w0 →
    Agree rs (askAll (Q.map (·.1)) w).1 w0
    ∧ (∀ w1 fs, askAll (Q.map (·.1)) w = (w1, .ok fs) → askAll (Q.map (·.2)) w = (w1, .ok fs))
    ∧ (∀ w1 s e, askAll (Q.map (·.1)) w = (w1, .error (s, e)) → ∃ s', s'.typeId = s.typeId ∧ askAll (Q.map (·.2)) w = (w1, .error (s', e)))
  | [], _, w, hw => ⟨hw, fun _ _ h => h, fun _ _ _ h => by cases h⟩
  | p :: Q, h, w, hw => by
    have hp := h p List.mem_cons_self
    obtain ⟨h1, h2⟩ := hp.cond w hw
    rw [List.map_cons, List.map_cons]
    unfold askAll
    rw [← h1]
    rcases he : evalC p.1.runIf w with ⟨w1, e | f⟩
    · rw [he] at h2
      refine ⟨h2, fun _ _ h => (by cases h), fun _ _ _ h => ?_⟩
      cases h
      exact ⟨_, hp.type, rfl⟩
    · rw [he] at h2
      obtain ⟨k1, k2, k3⟩ := ask_alike Q (fun q hq => h q (List.mem_cons_of_mem _ hq)) w1 h2
      dsimp only
      rcases hQ : askAll (Q.map (·.1)) w1 with ⟨w2, ⟨s, e⟩ | fs⟩
      · rw [hQ] at k1 ⊢
        obtain ⟨s', g1, g2⟩ := k3 _ _ _ hQ
        refine ⟨k1, fun _ _ h => (by cases h), fun _ _ _ h => ?_⟩
        cases h
        exact ⟨s', g1, by rw [g2]⟩
      · rw [hQ] at k1 ⊢
        refine ⟨k1, fun _ _ h => ?_, fun _ _ _ h => (by cases h)⟩
        cases h
        rw [k2 _ _ hQ]

theorem chosen_map {α : Type} (f : α → WSys (Nat → V) ε) (Q : List α) (flags : List Bool) :
    chosen (Q.map f) flags = (((Q.zip flags).filter (·.2)).map (·.1)).map f := by
  unfold chosen
  rw [List.zip_map_left, List.filter_map, List.map_map, List.map_map]
  rfl

theorem spare_tasks (hQ : ∀ p ∈ Q, SysAlike rs progOf w0 p.1 p.2) {flags : List Bool} {ts : List (Task (Nat → V) ε)}
    (h : ts.map (·.status) = (chosen (Q.map (·.1)) flags).map (fun s => .todo (progOf s.typeId))) : ∀ t ∈ ts, SpareTask rs t := by
  intro t ht p hp
  have : t.status ∈ ts.map (·.status) := List.mem_map_of_mem ht
  rw [h, chosen_map] at this
  obtain ⟨s, hs, e⟩ := List.mem_map.mp this
  obtain ⟨q, hq, rfl⟩ := List.mem_map.mp hs
  obtain ⟨⟨q', b⟩, hz, rfl⟩ := List.mem_map.mp hq
  have hz := (List.mem_filter.mp hz).1
  have := hQ q' (List.of_mem_zip hz).1
  rw [← e] at hp
  rcases hp with hp | hp
  · cases hp; exact this.spare
  · cases hp

theorem chosen_alike (hQ : ∀ p ∈ Q, SysAlike rs progOf w0 p.1 p.2) (flags : List Bool) :
    (chosen (Q.map (·.2)) flags).map (·.typeId) = (chosen (Q.map (·.1)) flags).map (·.typeId) := by
  rw [chosen_map, chosen_map]
  generalize hR : ((Q.zip flags).filter (·.2)).map (·.1) = R
  rw [List.map_map, List.map_map]
  apply List.map_congr_left
  intro q hq
  rw [← hR] at hq
  obtain ⟨⟨q', b⟩, hz, rfl⟩ := List.mem_map.mp hq
  exact (hQ q' (List.of_mem_zip (List.mem_filter.mp hz).1).1).type

theorem todo_alike (hQ : ∀ p ∈ Q, SysAlike rs progOf w0 p.1 p.2) {flags : List Bool} :
    (chosen (Q.map (·.2)) flags).map (fun s => (.todo (progOf s.typeId) : Status (Nat → V) ε))
      = (chosen (Q.map (·.1)) flags).map (fun s => .todo (progOf s.typeId)) := by
  have := congrArg (List.map fun t => (Status.todo (progOf t) : Status (Nat → V) ε)) (chosen_alike hQ flags)
  rw [List.map_map, List.map_map] at this
  exact this

theorem atOnce_alike (hQ : ∀ p ∈ Q, SysAlike rs progOf w0 p.1 p.2) {w w' : Nat → V} {res : Except (RunErr ε) Unit} (hw : Agree rs w w0)
    (h : AtOnce progOf nameOf (Q.map (·.1)) w w' res) : AtOnce progOf nameOf (Q.map (·.2)) w w' res ∧ Agree rs w' w0 := by
  obtain ⟨k1, k2, k3⟩ := ask_alike Q hQ w hw
  cases h with
  | refused ha =>
    obtain ⟨s', g1, g2⟩ := k3 _ _ _ ha
    rw [ha] at k1
    rw [← g1]
    exact ⟨.refused g2, k1⟩
  | ok ha h1 h2 h3 =>
    rw [ha] at k1
    refine ⟨.ok (k2 _ _ ha) (h1.trans (todo_alike hQ).symm) h2 h3, fun x hx => ?_⟩
    exact ((steps_spare h2 (spare_tasks hQ h1)).1 x hx).trans (k1 x hx)
  | @failed _ _ flags e i s t ts ts' ha h1 h2 h3 h4 h5 h6 =>
    rw [ha] at k1
    have ht : ((chosen (Q.map (·.2)) flags).map (·.typeId))[i]? = ((chosen (Q.map (·.1)) flags).map (·.typeId))[i]? := by
      rw [chosen_alike hQ flags]
    rw [List.getElem?_map, List.getElem?_map, h4] at ht
    obtain ⟨s', g1, g2⟩ := Option.map_eq_some_iff.mp ht
    rw [← (show s'.typeId = s.typeId from g2)]
    refine ⟨.failed (k2 _ _ ha) (h1.trans (todo_alike hQ).symm) h2 h3 g1 h5 h6, fun x hx => ?_⟩
    exact ((steps_spare h2 (spare_tasks hQ h1)).1 x hx).trans (k1 x hx)

theorem inTurn_alike : ∀ (Qs : List (List (WSys (Nat → V) ε × WSys (Nat → V) ε))), (∀ Q ∈ Qs, ∀ p ∈ Q, SysAlike rs progOf w0 p.1 p.2) →
    ∀ {w w' : Nat → V} {res : Except (RunErr ε) Unit}, Agree rs w w0 → InTurn progOf nameOf (Qs.map (List.map (·.1))) w w' res →
    InTurn progOf nameOf (Qs.map (List.map (·.2))) w w' res
  | [], _, _, _, _, _, h => by cases h; exact .nil
  | Q :: Qs, hQ, w, w', res, hw, h => by
    rw [List.map_cons] at h ⊢
    cases h with
    | stop h => exact .stop (atOnce_alike (hQ Q List.mem_cons_self) hw h).1
    | next h1 h2 =>
      obtain ⟨k1, k2⟩ := atOnce_alike (hQ Q List.mem_cons_self) hw h1
      exact .next k1 (inTurn_alike Qs (fun q hq => hQ q (List.mem_cons_of_mem _ hq)) k2 h2)

theorem perms_alike {w w' : Workload (Nat → V) ε} {plan : List (Nat × Nat)} (h : WAlike rs progOf w0 w w') :
    ∀ (Ls : List (List (WSys (Nat → V) ε))) (n : Nat), (∀ (k : Nat) L, Ls[k]? = some L → L.Perm (w.group plan (n + k))) →
    ∃ Qs : List (List (WSys (Nat → V) ε × WSys (Nat → V) ε)), Qs.map (List.map (·.1)) = Ls
      ∧ (∀ Q ∈ Qs, ∀ p ∈ Q, SysAlike rs progOf w0 p.1 p.2)
      ∧ ∀ (k : Nat) L, (Qs.map (List.map (·.2)))[k]? = some L → L.Perm (w'.group plan (n + k))
  | [], _, _ => ⟨[], rfl, fun _ h => absurd h List.not_mem_nil, fun k L h => by simp at h⟩
  | L :: Ls, n, hL => by
    obtain ⟨P, p1, p2, p3⟩ := h.pairs
    obtain ⟨Qs, q1, q2, q3⟩ := perms_alike h Ls (n + 1) fun k L hk => by
      have := hL (k + 1) L (by simpa using hk)
      rwa [show n + (k + 1) = n + 1 + k from by omega] at this
    have h0 := hL 0 L rfl
    rw [group_alike p1] at h0
    obtain ⟨Q, g1, g2⟩ := perm_map _ _ _ h0
    refine ⟨Q :: Qs, by rw [List.map_cons, q1, g2], ?_, ?_⟩
    · intro Q' hQ' p hp
      rcases List.mem_cons.mp hQ' with rfl | hQ'
      · obtain ⟨i, _, hi⟩ := List.mem_filterMap.mp (g1.mem_iff.mp hp)
        exact p3 p (List.mem_of_getElem? hi)
      · exact q2 Q' hQ' p hp
    · intro k L' hk
      cases k with
      | zero =>
        cases hk
        rw [group_alike p2]
        exact g1.map _
      | succ k =>
        have := q3 k L' (by simpa using hk)
        rwa [show n + 1 + k = n + (k + 1) from by omega] at this

theorem mayRun_alike {w w' : Workload (Nat → V) ε} (h : WAlike rs progOf w0 w w') {plan : List (Nat × Nat)} {l : Label} {w1 : Nat → V}
    {res : Except (RunErr ε) Unit} (hr : w.MayRun plan progOf nameOf l w0 w1 res) : w'.MayRun plan progOf nameOf l w0 w1 res := by
  obtain ⟨h1, h2⟩ := h.cond w0 fun _ _ => rfl
  unfold Workload.MayRun at hr ⊢
  rw [← h1]
  rcases he : evalC w.runIf w0 with ⟨w2, e | (_ | _)⟩
  · rw [he] at hr; exact hr
  · rw [he] at hr; exact hr
  · rw [he] at hr h2
    obtain ⟨Ls, g1, g2, g3⟩ := hr
    obtain ⟨Qs, q1, q2, q3⟩ := perms_alike (plan := plan) h Ls 0 (by simpa using g2)
    refine ⟨Qs.map (List.map (·.2)), ?_, by simpa using q3, ?_⟩
    · intro p hp
      have := g1 p hp
      rw [← q1] at this
      simpa using this
    · rw [← q1] at g3
      exact inTurn_alike Qs q2 h2 g3

/-! ## Sequential runs -/

theorem runJob_alike {s s' : WSys (Nat → V) ε} (h : SysAlike rs progOf w0 s s') {w : Nat → V} (hw : Agree rs w w0) :
    runJob ((s.name, s.fn), s.runIf) w = runJob ((s'.name, s'.fn), s'.runIf) w
    ∧ Agree rs (runJob ((s.name, s.fn), s.runIf) w).1 w0 := by
  obtain ⟨h1, h2⟩ := h.cond w hw
  unfold runJob
  dsimp only
  rw [← h1, h.name, h.fn]
  rcases he : evalC s.runIf w with ⟨w2, e | (_ | _)⟩
  · rw [he] at h2; exact ⟨rfl, h2⟩
  · rw [he] at h2; exact ⟨rfl, h2⟩
  · rw [he] at h2
    dsimp only
    refine ⟨rfl, fun x hx => ?_⟩
    have := (h.spare.run w2 x hx).trans (h2 x hx)
    rw [← h.run] at this
    rcases hf : s.fn w2 with ⟨w3, e | _⟩
    · rw [hf] at this; exact this
    · rw [hf] at this; exact this

theorem runJobs_alike : ∀ (Q : List (WSys (Nat → V) ε × WSys (Nat → V) ε)), (∀ p ∈ Q, SysAlike rs progOf w0 p.1 p.2) →
    ∀ w, Agree rs w w0 → runJobs (Q.map fun p => ((p.1.name, p.1.fn), p.1.runIf)) w
      = runJobs (Q.map fun p => ((p.2.name, p.2.fn), p.2.runIf)) w
  | [], _, _, _ => rfl
  | p :: Q, h, w, hw => by
    obtain ⟨h1, h2⟩ := runJob_alike (h p List.mem_cons_self) hw
    rw [List.map_cons, List.map_cons]
    unfold runJobs
    rw [← h1]
    rcases he : runJob ((p.1.name, p.1.fn), p.1.runIf) w with ⟨w2, e | _⟩
    · rfl
    · rw [he] at h2
      exact runJobs_alike Q (fun q hq => h q (List.mem_cons_of_mem _ hq)) w2 h2

theorem inOrder_alike {w : Workload (Nat → V) ε} {P : List (WSys (Nat → V) ε × WSys (Nat → V) ε)}
    {f : WSys (Nat → V) ε × WSys (Nat → V) ε → WSys (Nat → V) ε} (h : P.map f = w.systems) (plan : List (Nat × Nat)) :
    w.inOrder plan = (plan.filterMap fun p => P[p.1]?).map fun p => (((f p).name, (f p).fn), (f p).runIf) := by
  unfold Workload.inOrder Workload.namedJob Workload.at
  rw [← h, List.map_filterMap]
  congr 1
  funext p
  rw [List.getElem?_map, Option.map_map]
  rfl

theorem runAll_alike {w w' : Workload (Nat → V) ε} (h : WAlike rs progOf w0 w w') (plan : List (Nat × Nat)) (l : Label) :
    runAll l w.runIf (w.inOrder plan) w0 = runAll l w'.runIf (w'.inOrder plan) w0 := by
  obtain ⟨h1, h2⟩ := h.cond w0 fun _ _ => rfl
  obtain ⟨P, p1, p2, p3⟩ := h.pairs
  unfold runAll
  rw [← h1]
  rcases he : evalC w.runIf w0 with ⟨w2, e | (_ | _)⟩
  · rfl
  · rfl
  · rw [he] at h2
    dsimp only
    rw [inOrder_alike p1, inOrder_alike p2]
    refine runJobs_alike (progOf := progOf) _ (fun p hp => ?_) w2 h2
    obtain ⟨i, _, hi⟩ := List.mem_filterMap.mp hp
    exact p3 p (List.mem_of_getElem? hi)

end
end Verif.Sched
