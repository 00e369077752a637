import Verif.Spec.Schedule

/-!
# C51–C55: what was said about each system of a workload

The tags, the ordering constraints and the requirements each system of a workload is under, for all the ways to build one, written from
the documentation of `Workload::merge` (`src/scheduler/workload.rs:202-203`, `251-252`) and of the modificators
(`src/scheduler/system_modificator.rs:80-124`, `src/scheduler/workload_modificator.rs:101-108`). Nothing here looks into a system or a
workload.
-/
namespace Verif.Sched
variable {W ε : Type}

/-- What was said about a system or about a workload: its tags, the tags it has to be before and after of, and the tags it requires. -/
structure Words where
  tags : List Label
  before : List Label
  after : List Label
  reqIn : List Label
  reqBefore : List Label
  reqAfter : List Label

/-- Nothing but tags. -/
def Words.tagged (ts : List Label) : Words := ⟨ts, [], [], [], [], []⟩

/-- What was said about both. -/
def Words.and (x y : Words) : Words :=
  ⟨x.tags ++ y.tags, x.before ++ y.before, x.after ++ y.after, x.reqIn ++ y.reqIn, x.reqBefore ++ y.reqBefore, x.reqAfter ++ y.reqAfter⟩

/-- What was said about a system on its own. A function carries the tag of its type. -/
inductive OwnWords : WSys W ε → Words → Prop
  | ofFn {t bs f tr s} : WSys.ofFn t bs f tr = .ok s → OwnWords s (Words.tagged [.system t])
  | runIf {s x} (c : Cond W ε) : OwnWords s x → OwnWords (s.addRunIf c) x
  | skipIf {s x} (c : Cond W ε) : OwnWords s x → OwnWords (s.addSkipIf c) x
  | beforeAll {s x} (l : Label) : OwnWords s x → OwnWords (s.addBeforeAll l) { x with before := x.before ++ [l] }
  | afterAll {s x} (l : Label) : OwnWords s x → OwnWords (s.addAfterAll l) { x with after := x.after ++ [l] }
  | displayName {s x} (l : Label) : OwnWords s x → OwnWords (s.displayName l) x
  | tag {s x} (l : Label) : OwnWords s x → OwnWords (s.addTag l) { x with tags := x.tags ++ [l] }
  | requireIn {s x} (l : Label) : OwnWords s x → OwnWords (s.requireIn l) { x with reqIn := x.reqIn ++ [l] }
  | requireBefore {s x} (l : Label) : OwnWords s x → OwnWords (s.requireBefore l) { x with reqBefore := x.reqBefore ++ [l] }
  | requireAfter {s x} (l : Label) : OwnWords s x → OwnWords (s.requireAfter l) { x with reqAfter := x.reqAfter ++ [l] }

/-- `into_sequential_workload` puts each system before a tag made from the type of the next one. -/
def chainWords : List Nat → List Words → List Words
  | _ :: t :: ts, x :: xs => { x with before := x.before ++ [.sequential (.typeId t)] } :: chainWords (t :: ts) xs
  | _, xs => xs

/-- `Said w me ls bars`: `me` was said about workload `w` itself, `ls` about its systems, and barriers stand before the systems at `bars`.
Nesting a workload with `merge` (or `with_workload`, or in a tuple) hands what was said about each of the two workloads to its own systems,
and to no others; barriers stay between the systems they were put between. `append` takes the systems only. -/
inductive Said : Workload W ε → Words → List Words → List Nat → Prop
  | new (l : Label) : Said (Workload.new l) (.tagged [l]) [] []
  | emptyTuple (t : Nat) : Said (Workload.emptyTuple t) (.tagged [.workload t]) [] []
  | ofSystem (t : Nat) {s x} : OwnWords s x → Said (Workload.ofSystem t s) (.tagged [.workload t]) [x] []
  | withSystem {w me ls bars s x} : Said w me ls bars → OwnWords s x → Said (w.withSystem s) me (ls ++ [x]) bars
  | merge {w w' me me' ls ls' bars bars'} : Said w me ls bars → Said w' me' ls' bars' →
      Said (w.merge w') (.tagged []) (ls.map (·.and me) ++ ls'.map (·.and me')) (bars ++ bars'.map (· + ls.length))
  | append {w w' me me' ls ls' bars bars'} : Said w me ls bars → Said w' me' ls' bars' → Said (w.append w').1 me (ls ++ ls') bars
  | runIf {w me ls bars} (c : Cond W ε) : Said w me ls bars → Said (w.addRunIf c) me ls bars
  | skipIf {w me ls bars} (c : Cond W ε) : Said w me ls bars → Said (w.addSkipIf c) me ls bars
  | withBarrier {w me ls bars} : Said w me ls bars → Said w.withBarrier me ls (bars ++ [ls.length])
  | beforeAll {w me ls bars} (l : Label) : Said w me ls bars → Said (w.addBeforeAll l) { me with before := me.before ++ [l] } ls bars
  | afterAll {w me ls bars} (l : Label) : Said w me ls bars → Said (w.addAfterAll l) { me with after := me.after ++ [l] } ls bars
  | rename {w me ls bars} (l : Label) : Said w me ls bars → Said (w.rename l) { me with tags := me.tags ++ [l] } ls bars
  | tag {w me ls bars} (l : Label) : Said w me ls bars → Said (w.addTag l) { me with tags := me.tags ++ [l] } ls bars
  | ofFn (t : Nat) {w me ls bars} : Said w me ls bars → Said (Workload.ofFn t w) { me with tags := me.tags ++ [.workload t] } ls bars
  | intoSequential {w w' me ls bars} : Said w me ls bars → w.intoSequential = .ok w' →
      Said w' me (chainWords (w.systems.map (·.typeId)) ls) bars

/-- What was said puts system `a` before system `b`. -/
inductive Asked (ls : List Words) (bars : List Nat) : Nat → Nat → Prop
  | before {a b : Nat} {x y : Words} {l : Label} : ls[a]? = some x → ls[b]? = some y → a ≠ b → l ∈ x.before → l ∈ y.tags → Asked ls bars a b
  | after {a b : Nat} {x y : Words} {l : Label} : ls[a]? = some x → ls[b]? = some y → a ≠ b → l ∈ y.after → l ∈ x.tags → Asked ls bars a b
  | barrier {a b k : Nat} : k ∈ bars → a < k → k ≤ b → b < ls.length → Asked ls bars a b

/-- No order was asked for. -/
def Words.free (x : Words) : Prop := x.before = [] ∧ x.after = []

/-- System `a` has to be before system `b`: it was asked for, or `a` was added first and nothing was said about the order of either. -/
def Due (ls : List Words) (bars : List Nat) (a b : Nat) : Prop :=
  Asked ls bars a b ∨ a < b ∧ ∃ x y, ls[a]? = some x ∧ ls[b]? = some y ∧ x.free ∧ y.free

end Verif.Sched
