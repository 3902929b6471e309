import Verif.DjHost.Steps
/-!
# The disjoint pool's own memory: a run

One pool with one size class is created, two allocations of one slab are made.
-/
namespace Verif.DjHost.Wit

/-- One size class, of 2 GB; slabs of one page at least. -/
def prm : Params := ⟨4096, 4, 2 ^ 31, 0, 0⟩

def a1 : Answers := ⟨[10, 11, 12, 13, 14], [], []⟩
def a2 : Answers := ⟨[20], [65536], []⟩

def st (s : St) (op : Op) (a : Answers) : St := ((step 29 s op a).map (·.2)).getD init
def ans (s : St) (op : Op) (a : Answers) : Option Out := (step 29 s op a).map (·.1)

def s1 : St := st init (.create true prm) a1
def s2 : St := st s1 (.malloc 10 0) a2
def w1 : World := World.empty.next (.create true prm) (.success, 10)
def w2 : World := w1.next (.malloc 10 0) (.success, 20)

theorem ans1 : ans init (.create true prm) a1 = some (.success, 10) := by decide +kernel
theorem ans2 : ans s1 (.malloc 10 0) a2 = some (.success, 20) := by decide +kernel

theorem of_ans {s : St} {op : Op} {a : Answers} {o : Out} (h : ans s op a = some o) : step 29 s op a = some (o, st s op a) := by
  unfold ans at h
  unfold st
  cases e : step 29 s op a with
  | none => rw [e] at h; cases h
  | some r =>
    rw [e] at h
    cases h
    rfl

theorem legal1 : Legal World.empty (.create true prm) := Or.inl rfl

theorem runs_create {s : St} {A : World} {args : Bool} {q : Params} {a : Answers} {out : Out} {s' : St} (h : Inv0 s A)
    (hL : Legal A (.create args q)) (e : step 29 s (.create args q) a = some (out, s')) : Runs s (.create args q) a out s' := by
  have h' : Inv0 { s with host := a.host, give := a.give, room := a.room } A := h.ans _ _ _
  obtain ⟨o, t, e3, _⟩ := initialize_ok (args := args) (q := q) h' hL
  have e5 : step 29 s (.create args q) a = some (o, t) := e3 29 (Nat.le_refl _)
  rw [e5] at e
  simp only [Option.some.injEq, Prod.mk.injEq] at e
  obtain ⟨rfl, rfl⟩ := e
  exact ⟨29, e3⟩

theorem reach1 : Reach s1 w1 :=
  Reach.step Reach.init legal1 (a := a1) (out := (.success, 10)) (runs_create inv_init legal1 (of_ans ans1))

theorem legal2 : Legal w1 (.malloc 10 0) := ⟨⟨classesOf (2 ^ 31), 0, []⟩, rfl, by decide⟩

theorem runs_malloc {s : St} {p : Addr} {i : Nat} {a : Answers} {out : Out} {s' : St}
    (e : step 29 s (.malloc p i) a = some (out, s')) : Runs s (.malloc p i) a out s' := by
  refine ⟨0, fun fuel _ => ?_⟩
  unfold step Op.code at e ⊢
  exact e

theorem reach2 : Reach s2 w2 :=
  Reach.step reach1 legal2 (a := a2) (out := (.success, 20)) (runs_malloc (of_ans ans2))

theorem live2 : w2.pools 10 = some ⟨1, 0, [20]⟩ := by decide +kernel

end Verif.DjHost.Wit
