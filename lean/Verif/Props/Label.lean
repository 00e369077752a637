import Verif.Model.Label

/-!
# C80: labels identify workloads and systems consistently

`SameLabel` says what it is for two labels to be the same, without `as_any`, boxes or hashing.
-/
namespace Verif.Sched

/-- Two labels are the same: the same text in the same type of text, the same value of the same user type, the same type of
function, the same position, or sequential labels of the same label; boxes do not count, nor do names of systems. -/
inductive SameLabel : RLabel → RLabel → Prop where
  | text (k s) : SameLabel (.text k s) (.text k s)
  | custom (t v) : SameLabel (.custom t v) (.custom t v)
  | typeId (t) : SameLabel (.typeId t) (.typeId t)
  | system (t n n') : SameLabel (.system t n) (.system t n')
  | workload (t n n') : SameLabel (.workload t n) (.workload t n')
  | unique (n) : SameLabel (.unique n) (.unique n)
  | sequential {a b} : SameLabel a b → SameLabel (.sequential a) (.sequential b)
  | boxLeft {a b} : SameLabel a b → SameLabel (.boxed a) b
  | boxRight {a b} : SameLabel a b → SameLabel a (.boxed b)

namespace RLabel

theorem canon_asAny (l : RLabel) : l.asAny.canon = l.canon := by
  induction l with
  | boxed a ih => exact ih
  | _ => rfl

theorem asAny_notBoxed (l a : RLabel) : l.asAny ≠ .boxed a := by
  induction l with
  | boxed b ih => exact ih
  | _ => intro h; cases h

theorem TextKind.num_inj {k k' : TextKind} (h : k.num = k'.num) : k = k' := by
  cases k <;> cases k' <;> first | rfl | cases h

theorem canon_text {k s l} : canon (.text k s) = canon l → l.asAny = .text k s := by
  rw [← canon_asAny l]
  have hb := asAny_notBoxed l
  cases hl : l.asAny with
  | boxed b => exact absurd hl (hb b)
  | text k' s' =>
    intro h
    have h : 2 * Nat.pair k.num s = 2 * Nat.pair k'.num s' := by injection h
    have := Nat.pair_eq_pair.mp (by omega : Nat.pair k.num s = Nat.pair k'.num s')
    rw [TextKind.num_inj this.1, this.2]
  | custom t v =>
    intro h
    have h : 2 * Nat.pair k.num s = 2 * Nat.pair t v + 1 := by injection h
    omega
  | _ => intro h; cases h

theorem canon_custom {t v l} : canon (.custom t v) = canon l → l.asAny = .custom t v := by
  rw [← canon_asAny l]
  have hb := asAny_notBoxed l
  cases hl : l.asAny with
  | boxed b => exact absurd hl (hb b)
  | text k' s' =>
    intro h
    have h : 2 * Nat.pair t v + 1 = 2 * Nat.pair k'.num s' := by injection h
    omega
  | custom t' v' =>
    intro h
    have h : 2 * Nat.pair t v + 1 = 2 * Nat.pair t' v' + 1 := by injection h
    have := Nat.pair_eq_pair.mp (by omega : Nat.pair t v = Nat.pair t' v')
    rw [this.1, this.2]
  | _ => intro h; cases h

end RLabel

open RLabel

/-- C80. `==` on labels is equality in the model of workloads: what is proved there about labels holds of the labels of
the code. -/
theorem C80_model (a b : RLabel) : a.dynEq b = true ↔ a.canon = b.canon := by
  induction a generalizing b with
  | boxed a ih => exact ih b
  | text k s =>
    constructor
    · intro h
      unfold dynEq at h
      split at h
      · rename_i k' s' hb
        rw [← canon_asAny b, hb]
        simp at h
        rw [h.1, h.2]
      · cases h
    · intro h
      unfold dynEq
      rw [canon_text h]
      simp
  | custom t v =>
    constructor
    · intro h
      unfold dynEq at h
      split at h
      · rename_i k' s' hb
        rw [← canon_asAny b, hb]
        simp at h
        rw [h.1, h.2]
      · cases h
    · intro h
      unfold dynEq
      rw [canon_custom h]
      simp
  | sequential a ih =>
    have hnb := asAny_notBoxed b
    unfold dynEq
    rw [← canon_asAny b]
    cases hb : b.asAny with
    | boxed c => exact absurd hb (hnb c)
    | sequential c =>
      dsimp only
      rw [ih c]
      show _ ↔ Label.sequential a.canon = Label.sequential c.canon
      constructor
      · intro h; rw [h]
      · intro h; injection h
    | _ => exact ⟨(fun h => by cases h), (fun h => by cases h)⟩
  | typeId t =>
    have hnb := asAny_notBoxed b
    unfold dynEq
    rw [← canon_asAny b]
    cases hb : b.asAny with
    | boxed c => exact absurd hb (hnb c)
    | typeId c => simp [canon]
    | _ => exact ⟨(fun h => by cases h), (fun h => by cases h)⟩
  | system t n _ =>
    have hnb := asAny_notBoxed b
    unfold dynEq
    rw [← canon_asAny b]
    cases hb : b.asAny with
    | boxed c => exact absurd hb (hnb c)
    | system c _ => simp [canon]
    | _ => exact ⟨(fun h => by cases h), (fun h => by cases h)⟩
  | workload t n _ =>
    have hnb := asAny_notBoxed b
    unfold dynEq
    rw [← canon_asAny b]
    cases hb : b.asAny with
    | boxed c => exact absurd hb (hnb c)
    | workload c _ => simp [canon]
    | _ => exact ⟨(fun h => by cases h), (fun h => by cases h)⟩
  | unique n =>
    have hnb := asAny_notBoxed b
    unfold dynEq
    rw [← canon_asAny b]
    cases hb : b.asAny with
    | boxed c => exact absurd hb (hnb c)
    | unique c => simp [canon]
    | _ => exact ⟨(fun h => by cases h), (fun h => by cases h)⟩

theorem SameLabel.canon {a b : RLabel} (h : SameLabel a b) : a.canon = b.canon := by
  induction h with
  | sequential _ ih => exact congrArg Label.sequential ih
  | boxLeft _ ih => exact ih
  | boxRight _ ih => exact ih
  | _ => rfl

theorem SameLabel.asAny {a b : RLabel} (h : SameLabel a.asAny b) : SameLabel a b := by
  induction a with
  | boxed a ih => exact .boxLeft (ih h)
  | _ => exact h

theorem SameLabel.asAny' {a b : RLabel} (h : SameLabel a b.asAny) : SameLabel a b := by
  induction b with
  | boxed b ih => exact .boxRight (ih h)
  | _ => exact h

/-- C80. `==` on labels says when two labels are the same. -/
theorem C80_same (a b : RLabel) : a.dynEq b = true ↔ SameLabel a b := by
  constructor
  · intro h
    induction a generalizing b with
    | boxed a ih => exact .boxLeft (ih b h)
    | sequential a ih =>
      unfold dynEq at h
      split at h
      · rename_i c hc
        refine SameLabel.asAny' ?_
        rw [hc]
        exact .sequential (ih c h)
      · cases h
    | text k s =>
      unfold dynEq at h
      split at h
      · rename_i k' s' hc
        refine SameLabel.asAny' ?_
        rw [hc]
        simp at h
        rw [h.1, h.2]
        exact .text _ _
      · cases h
    | custom k s =>
      unfold dynEq at h
      split at h
      · rename_i k' s' hc
        refine SameLabel.asAny' ?_
        rw [hc]
        simp at h
        rw [h.1, h.2]
        exact .custom _ _
      · cases h
    | typeId t =>
      unfold dynEq at h
      split at h
      · rename_i c hc
        refine SameLabel.asAny' ?_
        rw [hc, of_decide_eq_true h]
        exact .typeId _
      · cases h
    | unique t =>
      unfold dynEq at h
      split at h
      · rename_i c hc
        refine SameLabel.asAny' ?_
        rw [hc, of_decide_eq_true h]
        exact .unique _
      · cases h
    | system t n =>
      unfold dynEq at h
      split at h
      · rename_i c n' hc
        refine SameLabel.asAny' ?_
        rw [hc, of_decide_eq_true h]
        exact .system _ _ _
      · cases h
    | workload t n =>
      unfold dynEq at h
      split at h
      · rename_i c n' hc
        refine SameLabel.asAny' ?_
        rw [hc, of_decide_eq_true h]
        exact .workload _ _ _
      · cases h
  · intro h
    exact (C80_model a b).mpr h.canon

/-- C80. `==` is reflexive, symmetric and transitive. -/
theorem C80_equivalence : (∀ a : RLabel, a.dynEq a = true) ∧ (∀ a b : RLabel, a.dynEq b = b.dynEq a) ∧
    ∀ a b c : RLabel, a.dynEq b = true → b.dynEq c = true → a.dynEq c = true := by
  refine ⟨fun a => (C80_model a a).mpr rfl, fun a b => ?_, fun a b c h1 h2 =>
    (C80_model a c).mpr (((C80_model a b).mp h1).trans ((C80_model b c).mp h2))⟩
  rw [Bool.eq_iff_iff, C80_model, C80_model]
  exact ⟨Eq.symm, Eq.symm⟩

/-- C80. Labels that are the same have the same hash, whatever the hasher does with what is written to it. -/
theorem C80_hash {a b : RLabel} (h : a.dynEq b = true) : a.hash = b.hash := by
  have hs := (C80_same a b).mp h
  have hh : a.asAny.tag = b.asAny.tag ∧ a.dynHash = b.dynHash := by
    clear h
    induction hs with
    | sequential _ ih => exact ⟨rfl, by show _ :: _ = _ :: _; rw [ih.1, ih.2]⟩
    | boxLeft _ ih => exact ih
    | boxRight _ ih => exact ih
    | _ => exact ⟨rfl, rfl⟩
  unfold RLabel.hash
  rw [hh.1, hh.2]

/-- C80. A clone is the same label, and is shown the same way. -/
theorem C80_clone (a : RLabel) : a.dynClone.dynEq a = true ∧ a.dynClone.shown = a.shown := by
  rw [C80_model]
  constructor
  · induction a with
    | boxed a ih => exact ih
    | sequential a ih => exact congrArg Label.sequential ih
    | _ => rfl
  · induction a with
    | boxed a ih => exact ih
    | sequential a ih => exact congrArg Shown.sequential ih
    | system t n ih => exact congrArg Shown.system ih
    | workload t n ih => exact congrArg Shown.workload ih
    | _ => rfl

/-! ## Maps and lists of labels -/

variable {β : Type}

/-- C80. Maps keyed by labels, like the workloads of a world: what is stored under a label is found under the labels that are
the same, and only under them, with any hasher. -/
theorem C80_map_insert (hasher : List Nat → Nat) (m : LabelMap β) (k k' : RLabel) (v : β) :
    (m.insert hasher k v).get hasher k' = if k.dynEq k' = true then some v else m.get hasher k' := by
  obtain ⟨refl, symm, trans⟩ := C80_equivalence
  unfold LabelMap.get LabelMap.insert
  by_cases h : k.dynEq k' = true
  · rw [if_pos h, C80_hash h, if_pos rfl]
    split
    · rename_i ha
      have : ∀ (l : List (RLabel × β)), l.any (fun p => p.1.dynEq k) = true →
          ((l.map fun p => if p.1.dynEq k then (p.1, v) else p).find? fun p => p.1.dynEq k').map (·.2) = some v := by
        intro l
        induction l with
        | nil => intro h; cases h
        | cons p l ih =>
          intro hl
          rw [List.map_cons, List.find?_cons]
          by_cases hp : p.1.dynEq k = true
          · rw [if_pos hp]
            dsimp only
            rw [trans _ _ _ hp h]
            rfl
          · rw [if_neg hp]
            have hpk : p.1.dynEq k' = false := by
              cases hx : p.1.dynEq k' with
              | false => rfl
              | true => exact absurd (trans _ _ _ hx ((symm _ _).trans h)) hp
            rw [hpk]
            apply ih
            simpa [hp] using hl
      exact this _ ha
    · rename_i ha
      rw [List.find?_append]
      have hn : (m (hasher k'.hash)).find? (fun p => p.1.dynEq k') = none := by
        rw [List.find?_eq_none]
        intro p hp hx
        apply ha
        rw [List.any_eq_true]
        exact ⟨p, hp, trans _ _ _ hx ((symm _ _).trans h)⟩
      rw [hn]
      simp [h]
  · rw [if_neg h]
    split
    · rename_i hb
      split
      · have : ∀ (l : List (RLabel × β)),
            ((l.map fun p => if p.1.dynEq k then (p.1, v) else p).find? fun p => p.1.dynEq k').map (·.2)
              = (l.find? fun p => p.1.dynEq k').map (·.2) := by
          intro l
          induction l with
          | nil => rfl
          | cons p l ih =>
            rw [List.map_cons, List.find?_cons, List.find?_cons]
            by_cases hp : p.1.dynEq k = true
            · rw [if_pos hp]
              have : p.1.dynEq k' = false := by
                cases hx : p.1.dynEq k' with
                | false => rfl
                | true => exact absurd (trans _ _ _ ((symm _ _).trans hp) hx) h
              dsimp only
              rw [this]
              exact ih
            · rw [if_neg hp]
              cases p.1.dynEq k' with
              | true => rfl
              | false => exact ih
        exact this _
      · rw [List.find?_append]
        have : [(k, v)].find? (fun p => p.1.dynEq k') = none := by simp [h]
        rw [this, Option.or_none]
    · rfl

/-- C80. Removing removes what is stored under the same label, and nothing else. -/
theorem C80_map_remove (hasher : List Nat → Nat) (m : LabelMap β) (k k' : RLabel) :
    (m.remove hasher k).get hasher k' = if k.dynEq k' = true then none else m.get hasher k' := by
  obtain ⟨refl, symm, trans⟩ := C80_equivalence
  unfold LabelMap.get LabelMap.remove
  by_cases h : k.dynEq k' = true
  · rw [if_pos h, C80_hash h, if_pos rfl]
    have : ((m (hasher k'.hash)).filter fun p => !p.1.dynEq k).find? (fun p => p.1.dynEq k') = none := by
      rw [List.find?_eq_none]
      intro p hp hx
      rw [List.mem_filter] at hp
      rw [trans _ _ _ hx ((symm _ _).trans h)] at hp
      exact absurd hp.2 (by decide)
    rw [this]
    rfl
  · rw [if_neg h]
    split
    · rw [List.find?_filter]
      congr 2
      funext p
      cases hx : p.1.dynEq k' with
      | false => simp
      | true =>
        have : p.1.dynEq k = false := by
          cases hy : p.1.dynEq k with
          | false => rfl
          | true => exact absurd (trans _ _ _ ((symm _ _).trans hy) hx) h
        simp [this]
    · rfl

/-- C80. Lists of requirements are those of the model of workloads. -/
theorem C80_dedup_model (ls new : List RLabel) :
    (dedupExtend ls new).map RLabel.canon = extendLabels (ls.map RLabel.canon) (new.map RLabel.canon) := by
  unfold dedupExtend extendLabels
  induction new generalizing ls with
  | nil => rfl
  | cons l new ih =>
    rw [List.foldl_cons, List.map_cons, List.foldl_cons, ih]
    congr 1
    unfold dedupAdd addLabel
    have : (ls.any fun x => x.dynEq l) = true ↔ l.canon ∈ ls.map RLabel.canon := by
      rw [List.any_eq_true, List.mem_map]
      constructor
      · rintro ⟨x, hx, he⟩; exact ⟨x, hx, (C80_model x l).mp he⟩
      · rintro ⟨x, hx, he⟩; exact ⟨x, hx, (C80_model x l).mpr he⟩
    by_cases hm : l.canon ∈ ls.map RLabel.canon
    · rw [if_pos (this.mpr hm), if_pos hm]
    · rw [if_neg (fun h => hm (this.mp h)), if_neg hm, List.map_append]
      rfl

/-- C80. A list of requirements holds each label once, all that were added and no other; `add` says whether the label was
new. -/
theorem C80_dedup (ls : List RLabel) (l : RLabel) (h : ls.Pairwise fun a b => ¬ SameLabel a b) :
    (dedupAdd ls l).1.Pairwise (fun a b => ¬ SameLabel a b) ∧
    ((dedupAdd ls l).2 = true ↔ ∀ x ∈ ls, ¬ SameLabel x l) ∧
    ∀ x, (∃ y ∈ (dedupAdd ls l).1, SameLabel y x) ↔ (∃ y ∈ ls, SameLabel y x) ∨ SameLabel l x := by
  unfold dedupAdd
  by_cases ha : (ls.any fun x => x.dynEq l) = true
  · rw [if_pos ha]
    obtain ⟨z, hz, hzl⟩ := List.any_eq_true.mp ha
    refine ⟨h, ⟨(fun h => by cases h), fun hn => absurd ((C80_same _ _).mp hzl) (hn z hz)⟩, fun x => ⟨.inl, ?_⟩⟩
    rintro (hx | hx)
    · exact hx
    · exact ⟨z, hz, (C80_same _ _).mp (C80_equivalence.2.2 _ _ _ hzl ((C80_same _ _).mpr hx))⟩
  · rw [if_neg ha]
    have hn : ∀ x ∈ ls, ¬ SameLabel x l := fun x hx hs => ha (List.any_eq_true.mpr ⟨x, hx, (C80_same _ _).mpr hs⟩)
    refine ⟨?_, ⟨fun _ => hn, fun _ => rfl⟩, fun x => ?_⟩
    · rw [List.pairwise_append]
      refine ⟨h, List.pairwise_singleton .., ?_⟩
      intro a ha b hb
      rw [List.mem_singleton.mp hb]
      exact hn a ha
    · constructor
      · rintro ⟨y, hy, hs⟩
        rcases List.mem_append.mp hy with hy | hy
        · exact .inl ⟨y, hy, hs⟩
        · rw [List.mem_singleton.mp hy] at hs; exact .inr hs
      · rintro (⟨y, hy, hs⟩ | hs)
        · exact ⟨y, List.mem_append_left _ hy, hs⟩
        · exact ⟨l, by simp, hs⟩

/-! ## What does not hold -/

/-- The same text in two types is two labels: a workload added under `"a"` is not found under `String::from("a")`. -/
theorem C80_text_fails : ∃ a b : RLabel, a.shown = b.shown ∧ a.dynEq b = false ∧
    ∀ hasher, LabelMap.get hasher (LabelMap.insert hasher (fun _ => []) a true) b = none := by
  refine ⟨.text .str 1, .text .string 1, rfl, rfl, fun hasher => ?_⟩
  rw [C80_map_insert]
  rfl

/-- Labels that are the same can be shown differently: systems are compared by the type of their function. -/
theorem C80_shown_fails : ∃ a b : RLabel, a.dynEq b = true ∧ a.shown ≠ b.shown :=
  ⟨.system 1 (.text .str 1), .system 1 (.text .str 2), rfl, by decide⟩

/-- Boxes, names and nesting: the theorems are about labels like these. -/
example : (RLabel.boxed (.sequential (.boxed (.system 3 (.text .cow 4))))).dynEq (.sequential (.boxed (.boxed (.system 3 (.text .str 5))))) = true := rfl
example : (dedupExtend [.text .str 1] [.boxed (.text .str 1), .typeId 2, .boxed (.typeId 2)]) = [.text .str 1, .typeId 2] := rfl

end Verif.Sched
