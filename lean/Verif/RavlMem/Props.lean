import Verif.RavlMem.Remove
import Verif.RavlMem.Spec
import Verif.Ravl.Props
/-!
# C74: the nodes of the ordered tree

After any history of insertions, removals, lookups, steps and clears, every call is defined: no access to a freed or missing node, no failed
assertion, no endless loop. The answers are those of an ordered set; the allocated nodes are exactly the nodes of the elements.
-/
namespace Verif.RavlMem
open Verif.Ravl (Slot Pred Tree zip foreachOrder pathPre pathPost Sorted)
open Spec

variable {α : Type}

/-- A call of the interface of `ravl.c`. -/
def exec (key : α → Nat) (op : Op α) (s : St α) (fuel : Nat) : Option (St α × Out α) :=
  match op with
  | .insert x a => (emplace key x a fuel s).map fun r => (r.1, .ok r.2)
  | .remove n => (remove fuel s n).map fun s => (s, .done)
  | .find q fl => (find key q fl fuel s).map fun a => (s, .node a)
  | .first => (most .left fuel s).map fun a => (s, .node a)
  | .last => (most .right fuel s).map fun a => (s, .node a)
  | .next n => (cessor .right fuel s n).map fun a => (s, .node a)
  | .prev n => (cessor .left fuel s n).map fun a => (s, .node a)
  | .foreach => (foreach fuel s).map fun r => (r.1, .elems r.2)
  | .clear => (clear fuel s).map fun s => (s, .done)

/-- The executions: calls that name live nodes only, from the new tree. -/
inductive Run (key : α → Nat) : List (Op α × Out α) → St α → Prop where
  | nil : Run key [] init
  | step {h s op s' out} : Run key h s → Legal (fun n => s.h n ≠ none) op → Ends (exec key op s) (s', out) → Run key (h ++ [(op, out)]) s'

/-- The memory holds the set `L`. -/
def Inv (key : α → Nat) (s : St α) (L : List (Addr × α)) : Prop :=
  ∃ t, Shape s t ∧ Rk t ∧ foreachOrder t = L ∧ Sorted (fun e : Addr × α => key e.2) L

theorem ends_unique {β : Type} {f : Nat → Option β} {a b : β} (h1 : Ends f a) (h2 : Ends f b) : a = b := by
  obtain ⟨n, hn⟩ := h1
  obtain ⟨m, hm⟩ := h2
  have := hn (max n m) (Nat.le_max_left _ _)
  rw [hm (max n m) (Nat.le_max_right _ _)] at this
  exact (Option.some.inj this).symm

theorem aOf_eq (r : Option (Addr × α)) : aOf r = nodeOf r := by cases r <;> rfl

theorem sorted_cut {key : α → Nat} {A B : List (Addr × α)} {e : Addr × α} (h : Sorted (fun e : Addr × α => key e.2) (A ++ e :: B)) :
    Sorted (fun e : Addr × α => key e.2) (A ++ B) := by
  rw [Sorted.append_iff, Sorted.cons_iff] at h
  rw [Sorted.append_iff]
  exact ⟨h.1, h.2.1.2, fun u hu v hv => h.2.2 u hu v (List.mem_cons_of_mem _ hv)⟩

theorem sorted_move {key : α → Nat} {A B : List (Addr × α)} {n m : Addr} {y : α} (h : Sorted (fun e : Addr × α => key e.2) (A ++ (m, y) :: B)) :
    Sorted (fun e : Addr × α => key e.2) (A ++ (n, y) :: B) := by
  rw [Sorted.append_iff, Sorted.cons_iff] at h ⊢
  refine ⟨h.1, h.2.1, ?_⟩
  intro u hu v hv
  rcases List.mem_cons.1 hv with rfl | hv
  · exact h.2.2 u hu (m, y) List.mem_cons_self
  · exact h.2.2 u hu v (List.mem_cons_of_mem _ hv)

theorem sorted_add {key : α → Nat} {A B : List (Addr × α)} {a : Addr} {x : α} (h : Sorted (fun e : Addr × α => key e.2) (A ++ B))
    (hA : ∀ e ∈ A, key e.2 < key x) (hB : ∀ e ∈ B, key x < key e.2) : Sorted (fun e : Addr × α => key e.2) (A ++ (a, x) :: B) := by
  rw [Sorted.append_iff] at h ⊢
  rw [Sorted.cons_iff]
  refine ⟨h.1, ⟨hB, h.2.1⟩, ?_⟩
  intro u hu v hv
  rcases List.mem_cons.1 hv with rfl | hv
  · exact hA u hu
  · exact h.2.2 u hu v hv

theorem rep_unique {h h' : Addr → Option (Node α)} {t : T α} : ∀ {par : Addr}, Rep h t par → Rep h' t par → ∀ a ∈ adrs t, h a = h' a := by
  induction t with
  | nil => intro par _ _ a ha; cases ha
  | node l d k r ihl ihr =>
    rintro par ⟨-, a2, a3, a4⟩ ⟨-, b2, b3, b4⟩ a ha
    rw [show Ravl.Tree.node l d k r = Tree.at .left l r d k from rfl, mem_at] at ha
    rcases ha with rfl | ha | ha
    · rw [a2, b2]
    · exact ihl a3 b3 a ha
    · exact ihr a4 b4 a ha

/-- The tree determines the memory. -/
theorem shape_unique {s s' : St α} {t : T α} (h : Shape s t) (h' : Shape s' t) : s = s' := by
  obtain ⟨root, hp⟩ := s
  obtain ⟨root', hp'⟩ := s'
  have h1 : root = root' := h.root.trans h'.root.symm
  have h2 : hp = hp' := by
    funext a
    by_cases ha : a ∈ adrs t
    · exact rep_unique h.rep h'.rep a ha
    · have e1 : hp a = none := Classical.byContradiction fun e => ha (h.all a e)
      have e2 : hp' a = none := Classical.byContradiction fun e => ha (h'.all a e)
      rw [e1, e2]
  rw [h1, h2]

/-- One call: defined, and a step of the specification. -/
theorem exec_bound {key : α → Nat} {s : St α} {L : List (Addr × α)} (hi : Inv key s L) {op : Op α} (hl : Legal (fun n => s.h n ≠ none) op) :
    ∃ s' out L', (∀ m, 2 * L.length + 2 ≤ m → exec key op s m = some (s', out)) ∧ Step key L op out L' ∧ Inv key s' L' := by
  obtain ⟨t, hs, hk, hL, hsort⟩ := hi
  have hsize : size t = L.length := by rw [← hL]; rfl
  have hmem : ∀ {a}, a ∈ L.map (·.1) ↔ a ∈ adrs t := by intro a; rw [← hL]; rfl
  have same : Inv key s L := ⟨t, hs, hk, hL, hsort⟩
  cases op with
  | insert x a =>
    by_cases hfail : a = 0 ∨ s.h a ≠ none
    · refine ⟨s, .ok false, L, fun m _ => ?_, .refused ?_, same⟩
      · show (emplace key x a m s).map _ = _
        rw [emplace_fail key x m hfail]
        rfl
      · rcases hfail with h | h
        · exact Or.inl h
        · exact Or.inr (hmem.2 (hs.all a h))
    · have a0 : a ≠ 0 := fun h => hfail (Or.inl h)
      have ha : s.h a = none := Classical.byContradiction fun h => hfail (Or.inr h)
      have hspec := Ravl.emplace_spec (fun e : Addr × α => key e.2) true t (a, x) (by rw [hL]; exact hsort)
      cases e : Ravl.emplace (fun e : Addr × α => key e.2) true t (a, x) with
      | none =>
        rw [e] at hspec
        have hd : ∃ e ∈ L, key e.2 = key x := by
          rcases hspec with h | h
          · cases h
          · rw [← hL]; exact h
        refine ⟨s, .ok false, L, fun m hm => ?_, .duplicate hd, same⟩
        have h := emplace_shape key x hs hk a0 ha (fuel := m) (by omega)
        rw [e] at h
        show (emplace key x a m s).map _ = _
        rw [h]
        rfl
      | some t' =>
        rw [e] at hspec
        obtain ⟨-, -, A, B, h1, h2, h3, h4⟩ := hspec
        rw [hL] at h1
        -- the state does not depend on the number of rounds
        have hb := fun m hm => emplace_shape key x hs hk a0 ha (fuel := m) hm
        simp only [e] at hb
        obtain ⟨s1, e1, sh1, rk1⟩ := hb (size t + 1) (by omega)
        refine ⟨s1, .ok true, A ++ (a, x) :: B, fun m hm => ?_, ?_, t', sh1, rk1, h2, ?_⟩
        · obtain ⟨s2, e2, sh2, -⟩ := hb m (by omega)
          show (emplace key x a m s).map _ = _
          rw [e2, shape_unique sh2 sh1]
          rfl
        · rw [h1]
          refine .inserted a0 ?_ h3 h4
          rw [← h1, hmem]
          exact fun h => (rep_get hs.rep a h).2 ha
        · rw [h1] at hsort
          exact sorted_add hsort h3 h4
  | remove n =>
    obtain ⟨l, d, k, r, q, rfl, hz⟩ := locate (hs.all n hl) []
    have hz' : zip (.node l d k r) q = t := hz
    have hloc : Loc s (.node l d k r) q := shape_loc.1 (by rw [hz']; exact hs)
    have hsz := size_zip (t := (.node l d k r : T α)) (p := q)
    rw [hz'] at hsz
    have hb := fun m (hm : size t + 2 ≤ m) => remove_loc hloc (fuel := m) (by omega)
    obtain ⟨s1, e1, l1⟩ := hb _ (Nat.le_refl _)
    have hkl : Rk (zip (.node l d k r) q) := by rw [hz']; exact hk
    have hends : ∀ m, 2 * L.length + 2 ≤ m → exec key (.remove d.1) s m = some (s1, .done) := by
      refine fun m hm => ?_
      obtain ⟨s2, e2, l2⟩ := hb m (by omega)
      show (remove m s d.1).map _ = _
      rw [e2, shape_unique (shape_loc.2 l2) (shape_loc.2 l1)]
      rfl
    have hlist : L = (pathPre q ++ foreachOrder l) ++ d :: (foreachOrder r ++ pathPost q) := by
      rw [← hL, ← hz', Ravl.toList_zip]
      simp [foreachOrder]
    have hrk : Rk (zip (cut (.node l d k r)) q) := rk_zip.2 ⟨rk_cut (rk_zip.1 hkl).1, (rk_zip.1 hkl).2⟩
    rw [hlist] at hsort
    rcases cut_list (l := l) (r := r) (d := d) (k := k) with h | ⟨m, r', h1, -, h2⟩
    · refine ⟨s1, .done, (pathPre q ++ foreachOrder l) ++ (foreachOrder r ++ pathPost q), hends, ?_, _, shape_loc.2 l1, hrk, ?_, sorted_cut hsort⟩
      · rw [hlist]
        exact .removed (x := d.2)
      · rw [Ravl.toList_zip, h]
        simp
    · refine ⟨s1, .done, (pathPre q ++ foreachOrder l) ++ (d.1, m.2) :: (r' ++ pathPost q), hends, ?_, _, shape_loc.2 l1, hrk, ?_, ?_⟩
      · rw [hlist, h1]
        exact .moved (x := d.2) (m := m.1)
      · rw [Ravl.toList_zip, h2]
        simp
      · rw [h1] at hsort
        exact sorted_move (m := m.1) (sorted_cut hsort)
  | find q fl =>
    refine ⟨s, .node (nodeOf (Ravl.find (fun e : Addr × α => key e.2) t q fl)), L, fun m hm => ?_, .found ?_, same⟩
    · show (find key q fl m s).map _ = _
      rw [find_shape key q fl hs (by omega), aOf_eq]
      rfl
    · refine Ravl.answers_of_agree (fun e : Addr × α => key e.2) t L ⟨?_, ?_, ?_⟩ q fl hl
      · rw [hL]; exact hsort
      · intro y; rw [hL]
      · exact hsort.imp fun h => Nat.ne_of_lt h
  | first =>
    refine ⟨s, .node (nodeOf L.head?), L, fun m hm => ?_, .first, same⟩
    show (most .left m s).map _ = _
    rw [most_shape .left hs (by omega), Ravl.typeMost_left, hL, aOf_eq]
    rfl
  | last =>
    refine ⟨s, .node (nodeOf L.getLast?), L, fun m hm => ?_, .last, same⟩
    show (most .right m s).map _ = _
    rw [most_shape .right hs (by omega), Ravl.typeMost_right, hL, aOf_eq]
    rfl
  | next n =>
    obtain ⟨l, d, k, r, q, rfl, hz⟩ := locate (hs.all n hl) []
    have hz' : zip (.node l d k r) q = t := hz
    have hloc : Loc s (.node l d k r) q := shape_loc.1 (by rw [hz']; exact hs)
    have hsz := size_zip (t := (.node l d k r : T α)) (p := q)
    rw [hz', size_node] at hsz
    have hlist : L = (pathPre q ++ foreachOrder l) ++ d :: (foreachOrder r ++ pathPost q) := by
      rw [← hL, ← hz', Ravl.toList_zip]
      simp [foreachOrder]
    refine ⟨s, .node (nodeOf (foreachOrder r ++ pathPost q).head?), L, fun m hm => ?_, ?_, same⟩
    · show (cessor .right m s d.1).map _ = _
      have := cessor_loc .right (fuel := m) hloc (fun h => (nomatch h)) (by rw [size_node]; omega) (by omega)
      rw [show addr (Ravl.Tree.node l d k r) = d.1 from rfl] at this
      rw [this, Ravl.cessor_right, aOf_eq]
      rfl
    · rw [hlist]
      exact .next (x := d.2)
  | prev n =>
    obtain ⟨l, d, k, r, q, rfl, hz⟩ := locate (hs.all n hl) []
    have hz' : zip (.node l d k r) q = t := hz
    have hloc : Loc s (.node l d k r) q := shape_loc.1 (by rw [hz']; exact hs)
    have hsz := size_zip (t := (.node l d k r : T α)) (p := q)
    rw [hz', size_node] at hsz
    have hlist : L = (pathPre q ++ foreachOrder l) ++ d :: (foreachOrder r ++ pathPost q) := by
      rw [← hL, ← hz', Ravl.toList_zip]
      simp [foreachOrder]
    refine ⟨s, .node (nodeOf (pathPre q ++ foreachOrder l).getLast?), L, fun m hm => ?_, ?_, same⟩
    · show (cessor .left m s d.1).map _ = _
      have := cessor_loc .left (fuel := m) hloc (fun h => (nomatch h)) (by rw [size_node]; omega) (by omega)
      rw [show addr (Ravl.Tree.node l d k r) = d.1 from rfl] at this
      rw [this, Ravl.cessor_left, aOf_eq]
      rfl
    · rw [hlist]
      exact .prev (x := d.2)
  | foreach =>
    refine ⟨s, .elems (L.map (·.2)), L, fun m hm => ?_, .foreach, same⟩
    obtain ⟨s1, e1, r1, a1, b1⟩ := foreachNode_rep false (fuel := m) hs.rep hs.nd (by omega)
    have h1 : s1 = s := by
      obtain ⟨root, hp⟩ := s
      obtain ⟨root1, hp1⟩ := s1
      have : hp1 = hp := by
        funext a
        by_cases ha : a ∈ adrs t
        · exact b1 a ha
        · exact a1 a ha
      rw [this, show root1 = root from r1]
    show (foreachNode false m s s.root).map _ = _
    rw [hs.root, e1, h1, hL]
    rfl
  | clear =>
    refine ⟨init, .done, [], fun m hm => ?_, .clear, .nil, ⟨rfl, trivial, List.nodup_nil, fun a ha => absurd rfl ha⟩, trivial, rfl,
      List.Pairwise.nil⟩
    obtain ⟨s1, e1, r1, a1, b1⟩ := foreachNode_rep true (fuel := m) hs.rep hs.nd (by omega)
    have h1 : ({ s1 with root := 0 } : St α) = init := by
      have : s1.h = fun _ => none := by
        funext a
        by_cases ha : a ∈ adrs t
        · exact b1 a ha
        · rw [a1 a ha]
          exact Classical.byContradiction fun e => ha (hs.all a e)
      unfold init
      rw [this]
    show (clear m s).map _ = _
    unfold clear
    rw [hs.root, e1]
    simp only [Option.bind_eq_bind, Option.bind_some, h1]
    rfl

theorem exec_step {key : α → Nat} {s : St α} {L : List (Addr × α)} (hi : Inv key s L) {op : Op α} (hl : Legal (fun n => s.h n ≠ none) op) :
    ∃ s' out L', Ends (exec key op s) (s', out) ∧ Step key L op out L' ∧ Inv key s' L' := by
  obtain ⟨s', out, L', h1, h2⟩ := exec_bound hi hl
  exact ⟨s', out, L', ⟨_, h1⟩, h2⟩

theorem init_inv (key : α → Nat) : Inv key (init : St α) [] :=
  ⟨.nil, ⟨rfl, trivial, List.nodup_nil, fun a ha => absurd rfl ha⟩, trivial, rfl, List.Pairwise.nil⟩

theorem run_inv {key : α → Nat} {h : List (Op α × Out α)} {s : St α} (hr : Run key h s) : ∃ L, Hist key h L ∧ Inv key s L := by
  induction hr with
  | nil => exact ⟨[], .nil, init_inv key⟩
  | step hr hleg he ih =>
    obtain ⟨L, h1, h2⟩ := ih
    obtain ⟨s1, out, L', e1, st, inv⟩ := exec_step h2 hleg
    have := ends_unique e1 he
    cases this
    exact ⟨L', .step h1 st, inv⟩

/-- The live nodes and their elements are the set. -/
theorem inv_view {key : α → Nat} {s : St α} {L : List (Addr × α)} (hi : Inv key s L) :
    (L.map (·.1)).Nodup ∧ L.Pairwise (fun a b => key a.2 < key b.2) ∧ ∀ n x, (∃ c, s.h n = some c ∧ c.data = x) ↔ (n, x) ∈ L := by
  obtain ⟨t, hs, hk, rfl, hsort⟩ := hi
  refine ⟨hs.nd, hsort, ?_⟩
  have key1 : ∀ {h : Addr → Option (Node α)} {u : T α} {par : Addr}, Rep h u par → ∀ e ∈ foreachOrder u, ∃ c, h e.1 = some c ∧ c.data = e.2 := by
    intro h u
    induction u with
    | nil => intro par _ e he; cases he
    | node l d k r ihl ihr =>
      rintro par ⟨-, g2, g3, g4⟩ e he
      simp only [foreachOrder, List.mem_append, List.mem_cons] at he
      rcases he with he | rfl | he
      · exact ihl g3 e he
      · exact ⟨_, g2, rfl⟩
      · exact ihr g4 e he
  intro n x
  constructor
  · rintro ⟨c, hc, hx⟩
    have hn := hs.all n (by rw [hc]; exact fun h => (nomatch h))
    obtain ⟨e, he, hen⟩ := List.mem_map.1 hn
    obtain ⟨c', hc', hx'⟩ := key1 hs.rep e he
    rw [hen, hc] at hc'
    cases hc'
    rw [← hx, hx', ← hen]
    exact he
  · exact key1 hs.rep (n, x)

/-- **C74 (every call is defined).** After any history, a call that names only live nodes ends with a result: it touches no freed or missing node and
fails no assertion. -/
theorem C74_defined {key : α → Nat} {h : List (Op α × Out α)} {s : St α} (hr : Run key h s) {op : Op α} (hl : Legal (fun n => s.h n ≠ none) op) :
    ∃ s' out, Ends (exec key op s) (s', out) := by
  obtain ⟨L, -, hi⟩ := run_inv hr
  obtain ⟨s', out, -, e, -, -⟩ := exec_step hi hl
  exact ⟨s', out, e⟩

/-- **C74 (the answers are those of an ordered set of nodes, and the memory is that set).** For every history there is a set the specification reaches
with the same requests and answers; the nodes allocated are exactly its nodes, each with its element, all different, with increasing keys. -/
theorem C74_ordered_nodes {key : α → Nat} {h : List (Op α × Out α)} {s : St α} (hr : Run key h s) :
    ∃ L, Hist key h L ∧ (∀ n x, (∃ c, s.h n = some c ∧ c.data = x) ↔ (n, x) ∈ L) ∧ (L.map (·.1)).Nodup ∧
      L.Pairwise (fun a b => key a.2 < key b.2) := by
  obtain ⟨L, h1, hi⟩ := run_inv hr
  obtain ⟨g1, g2, g3⟩ := inv_view hi
  exact ⟨L, h1, g3, g1, g2⟩

/-- **C74 (destruction).** `ravl_delete_cb` hands every element to the callback, once each and in increasing order, and frees every node. -/
theorem C74_delete {key : α → Nat} {h : List (Op α × Out α)} {s : St α} (hr : Run key h s) :
    ∃ s' es, Ends (fun m => deleteCb m s) (s', es) ∧ (∀ n, s'.h n = none) ∧ es.Pairwise (fun a b => key a < key b) ∧
      ∀ x, x ∈ es ↔ ∃ n c, s.h n = some c ∧ c.data = x := by
  obtain ⟨L, -, hi⟩ := run_inv hr
  obtain ⟨-, -, g3⟩ := inv_view hi
  obtain ⟨t, hs, hk, hL, hsort⟩ := hi
  have hb := fun m (hm : size t < m) => foreachNode_rep true (fuel := m) hs.rep hs.nd hm
  have hnone : ∀ {s1 : St α}, (∀ a, a ∉ adrs t → s1.h a = s.h a) → (∀ a ∈ adrs t, s1.h a = if true = true then none else s.h a) → s1.h = fun _ => none := by
    intro s1 a1 b1
    funext a
    by_cases ha : a ∈ adrs t
    · exact b1 a ha
    · rw [a1 a ha]
      exact Classical.byContradiction fun e => ha (hs.all a e)
  refine ⟨⟨s.root, fun _ => none⟩, L.map (·.2), ⟨size t + 1, fun m hm => ?_⟩, fun _ => rfl, ?_, ?_⟩
  · obtain ⟨s1, e1, r1, a1, b1⟩ := hb m (by omega)
    show foreachNode true m s s.root = _
    rw [hs.root, e1, hL]
    have h1 := hnone a1 b1
    obtain ⟨root1, hp1⟩ := s1
    dsimp only at h1 r1
    rw [h1, r1, hs.root]
  · rw [List.pairwise_map]
    exact hsort
  · intro x
    constructor
    · intro hx
      obtain ⟨e, he, rfl⟩ := List.mem_map.1 hx
      obtain ⟨c, hc⟩ := (g3 e.1 e.2).2 he
      exact ⟨e.1, c, hc⟩
    · rintro ⟨n, c, hc⟩
      exact List.mem_map.2 ⟨(n, x), (g3 n x).1 ⟨c, hc⟩, rfl⟩

/-- **C74 (what a removal does to the nodes).** Removing the element `x` of node `n`: the other elements stay. Either node `n` is freed and no other node
changes, or node `n` takes the next element `y` and the node of `y` is freed; no other node changes its element. -/
theorem C74_remove_nodes {key : α → Nat} {h : List (Op α × Out α)} {s s' : St α} {n : Addr} {c : Node α} (hr : Run key h s) (hn : s.h n = some c)
    (he : Ends (exec key (.remove n) s) (s', .done)) :
    (∀ a x, (∃ c', s'.h a = some c' ∧ c'.data = x) ↔ (∃ c', s.h a = some c' ∧ c'.data = x) ∧ a ≠ n) ∨
    ∃ m cm, m ≠ n ∧ s.h m = some cm ∧ key c.data < key cm.data ∧
      (∀ b cb, s.h b = some cb → key c.data < key cb.data → key cm.data ≤ key cb.data) ∧
      (∀ a x, (∃ c', s'.h a = some c' ∧ c'.data = x) ↔ (a = n ∧ x = cm.data) ∨ ((∃ c', s.h a = some c' ∧ c'.data = x) ∧ a ≠ n ∧ a ≠ m)) := by
  obtain ⟨L, -, hi⟩ := run_inv hr
  obtain ⟨s1, out, L', e1, st, inv⟩ := exec_step hi (op := .remove n) (show s.h n ≠ none by rw [hn]; exact fun h => (nomatch h))
  have := ends_unique e1 he
  cases this
  obtain ⟨g1, g2, g3⟩ := inv_view hi
  obtain ⟨-, -, k3⟩ := inv_view inv
  generalize hop : (Op.remove n : Op α) = op at st
  cases st with
  | clear => cases hop
  | @removed A B n' x =>
    cases hop
    left
    intro a y
    rw [k3, g3]
    rw [List.map_append, List.map_cons, List.nodup_append, List.nodup_cons] at g1
    have hA : ∀ y, (n, y) ∉ A := fun y hy => g1.2.2 _ (List.mem_map.2 ⟨_, hy, rfl⟩) _ List.mem_cons_self rfl
    have hB : ∀ y, (n, y) ∉ B := fun y hy => g1.2.1.1 (List.mem_map.2 ⟨_, hy, rfl⟩)
    simp only [List.mem_append, List.mem_cons]
    constructor
    · rintro (h | h)
      · exact ⟨Or.inl h, fun e => hA y (e ▸ h)⟩
      · exact ⟨Or.inr (Or.inr h), fun e => hB y (e ▸ h)⟩
    · rintro ⟨h | h | h, hne⟩
      · exact Or.inl h
      · cases h; exact absurd rfl hne
      · exact Or.inr h
  | @moved A B n' x m y =>
    cases hop
    right
    have hc : c.data = x := by
      have h1 := (g3 n c.data).1 ⟨c, hn, rfl⟩
      obtain ⟨c', hc', hx⟩ := (g3 n x).2 (by simp)
      rw [hn] at hc'
      cases hc'
      exact hx
    obtain ⟨cm, hcm, hy⟩ := (g3 m y).2 (by simp)
    rw [List.map_append, List.map_cons, List.map_cons, List.nodup_append, List.nodup_cons, List.nodup_cons] at g1
    obtain ⟨-, ⟨n1, n2, -⟩, n3⟩ := g1
    have hA : ∀ y, (n, y) ∉ A := fun y hy => n3 _ (List.mem_map.2 ⟨_, hy, rfl⟩) _ List.mem_cons_self rfl
    have hAm : ∀ y, (m, y) ∉ A := fun y hy => n3 _ (List.mem_map.2 ⟨_, hy, rfl⟩) _ (List.mem_cons_of_mem _ List.mem_cons_self) rfl
    have hB : ∀ y, (n, y) ∉ B := fun y hy => n1 (List.mem_cons_of_mem _ (List.mem_map.2 ⟨_, hy, rfl⟩))
    have hBm : ∀ y, (m, y) ∉ B := fun y hy => n2 (List.mem_map.2 ⟨_, hy, rfl⟩)
    have hnm : m ≠ n := fun e => n1 (by rw [← e]; exact List.mem_cons_self)
    rw [List.pairwise_append, List.pairwise_cons, List.pairwise_cons] at g2
    obtain ⟨-, ⟨o1, o2, -⟩, o3⟩ := g2
    refine ⟨m, cm, hnm, hcm, ?_, ?_, ?_⟩
    · rw [hc, hy]
      exact o1 (m, y) List.mem_cons_self
    · intro b cb hb hlt
      have h1 := (g3 b cb.data).1 ⟨cb, hb, rfl⟩
      rw [hc] at hlt
      rw [hy]
      simp only [List.mem_append, List.mem_cons] at h1
      rcases h1 with h | h | h | h
      · have := o3 _ h (n, x) List.mem_cons_self
        dsimp only at this
        omega
      · have : cb.data = x := congrArg (·.2) h
        rw [this] at hlt
        omega
      · have : cb.data = y := congrArg (·.2) h
        rw [this]
        exact Nat.le_refl _
      · have := o2 _ h
        exact Nat.le_of_lt this
    · intro a z
      rw [k3, g3, hy]
      simp only [List.mem_append, List.mem_cons]
      constructor
      · rintro (h | h | h)
        · exact Or.inr ⟨Or.inl h, fun e => hA z (e ▸ h), fun e => hAm z (e ▸ h)⟩
        · cases h; exact Or.inl ⟨rfl, rfl⟩
        · exact Or.inr ⟨Or.inr (Or.inr (Or.inr h)), fun e => hB z (e ▸ h), fun e => hBm z (e ▸ h)⟩
      · rintro (⟨rfl, rfl⟩ | ⟨h | h | h | h, h1, h2⟩)
        · exact Or.inr (Or.inl rfl)
        · exact Or.inl h
        · cases h; exact absurd rfl h1
        · cases h; exact absurd rfl h2
        · exact Or.inr (Or.inr h)

/-- **C74 (what `coarse.c` relies on when it merges two blocks, 436-485).** A node whose element is smaller than the one removed stays, with its element. -/
theorem C74_smaller_stay {key : α → Nat} {h : List (Op α × Out α)} {s s' : St α} {n a : Addr} {c ca : Node α} (hr : Run key h s) (hn : s.h n = some c)
    (he : Ends (exec key (.remove n) s) (s', .done)) (ha : s.h a = some ca) (hlt : key ca.data < key c.data) :
    ∃ c', s'.h a = some c' ∧ c'.data = ca.data := by
  have hne : a ≠ n := by
    rintro rfl
    rw [hn] at ha
    cases ha
    exact absurd hlt (Nat.lt_irrefl _)
  rcases C74_remove_nodes hr hn he with h | ⟨m, cm, -, hm, h1, -, h2⟩
  · exact (h a ca.data).2 ⟨⟨ca, ha, rfl⟩, hne⟩
  · refine (h2 a ca.data).2 (Or.inr ⟨⟨ca, ha, rfl⟩, hne, ?_⟩)
    rintro rfl
    rw [ha] at hm
    cases hm
    omega

end Verif.RavlMem
