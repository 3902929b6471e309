import Verif.Critnib.ConcRun
import Verif.Critnib.DelSpec
import Mathlib.Tactic.Tauto
import Mathlib.Data.List.Perm.Subperm
/-! # `critnib_delete` frees everything once -/
namespace Verif.Critnib.Conc
open Verif.Critnib

variable {V : Type}

/-- Counted by the base allocator. -/
def Alive (h : Heap) : Ptr → Prop
  | .null => False
  | .leaf l => h.l l = true
  | .node n => h.n n = true

/-- In the subtree of the first. -/
inductive Below (m : Mem V) : Ptr → Ptr → Prop where
  | refl (p : Ptr) : Below m p p
  | child {n : Nat} (i : Fin 16) {q : Ptr} : Below m ((m.nodes n).child i) q → Below m (.node n) q

theorem below_snoc {m : Mem V} {p : Ptr} {n : Nat} (h : Below m p (.node n)) (i : Fin 16) : Below m p ((m.nodes n).child i) := by
  generalize hq : Ptr.node n = q at h
  induction h with
  | refl p => subst hq; exact .child i (.refl _)
  | child j _ ih => exact .child j (ih hq)

theorem below_fits {g : G V} (hg : GI g) {p q : Ptr} (h : Below g.mem p q) (hp : PLive g p) :
    PLive g q ∧ ∀ K, Fits g.mem K q → Fits g.mem K p := by
  induction h with
  | refl p => exact ⟨hp, fun _ h => h⟩
  | @child n i q _ ih =>
    obtain ⟨h1, h2⟩ := hg.kid n hp i
    exact ⟨(ih h1).1, fun K hK => (fits_child h2 ((ih h1).2 K hK)).1⟩

/-- Nodes further down have smaller shifts. -/
theorem below_shift {g : G V} (hg : GI g) {p q : Ptr} (h : Below g.mem p q) (hp : PLive g p) :
    ∀ c, q = .node c → ∃ n, p = .node n ∧ (g.mem.nodes c).shift ≤ (g.mem.nodes n).shift := by
  induction h with
  | refl p => rintro c rfl; exact ⟨c, rfl, Nat.le_refl _⟩
  | @child n i q hb ih =>
    rintro c rfl
    obtain ⟨h1, h2⟩ := hg.kid n hp i
    obtain ⟨k, hk, hle⟩ := ih h1 c rfl
    rw [hk] at h2
    exact ⟨n, rfl, by have := h2.1; omega⟩

theorem not_below_self {g : G V} (hg : GI g) {n : Nat} (hn : g.ln n = .live) (i : Fin 16) : ¬ Below g.mem ((g.mem.nodes n).child i) (.node n) := by
  intro h
  obtain ⟨h1, h2⟩ := hg.kid n hn i
  obtain ⟨k, hk, hle⟩ := below_shift hg h h1 n rfl
  rw [hk] at h2
  have := h2.1
  omega

theorem below_slot {g : G V} (hg : GI g) {n : Nat} (hn : g.ln n = .live) {i j : Fin 16} {q : Ptr} (hq : q ≠ .null)
    (hi : Below g.mem ((g.mem.nodes n).child i) q) (hj : Below g.mem ((g.mem.nodes n).child j) q) : i = j := by
  have hf := keyOf_fits g.mem hq
  have ki := hg.kid n hn i
  have kj := hg.kid n hn j
  have e1 := (fits_child ki.2 ((below_fits hg hi ki.1).2 _ hf)).2
  have e2 := (fits_child kj.2 ((below_fits hg hj kj.1).2 _ hf)).2
  exact e1.symm.trans e2

theorem pos_below {m : Mem V} (K : W) (j : Nat) : Below m m.root (pos m K j) := by
  induction j with
  | zero => exact .refl _
  | succ j ih =>
    show Below m m.root (follow m K (pos m K j))
    cases hp : pos m K j with
    | null => rw [hp] at ih; exact ih
    | leaf l => rw [hp] at ih; exact ih
    | node n => rw [hp] at ih; exact below_snoc ih _

/-- The tree is what is in the tree. -/
theorem live_below {g : G V} (hg : GI g) {p : Ptr} (hp : p ≠ .null) (hl : PLive g p) : Below g.mem g.mem.root p := by
  have : ∃ K, On g.mem K p := by
    cases p with
    | null => exact absurd rfl hp
    | leaf l => exact ⟨_, (hg.onL l hl).1⟩
    | node n => exact ⟨_, hg.onN n hl _ (keyOf_fits g.mem hp)⟩
  obtain ⟨K, j, rfl⟩ := this
  exact pos_below K j

theorem below_null {m : Mem V} {q : Ptr} (h : Below m .null q) : q = .null := by cases h; rfl

/-- What freeing one item does. -/
theorem freeN_alive {h : Heap} {n : Nat} (ha : h.n n = true) : ∃ h', freeN n h = some h' ∧ ∀ x, Alive h' x ↔ Alive h x ∧ x ≠ .node n := by
  refine ⟨_, if_pos ha, fun x => ?_⟩
  cases x with
  | null => exact ⟨False.elim, fun h => h.1⟩
  | leaf l => exact ⟨fun h => ⟨h, fun e => by cases e⟩, fun h => h.1⟩
  | node k =>
    show Function.update h.n n false k = true ↔ h.n k = true ∧ _
    rw [Function.update_apply]
    by_cases e : k = n
    · simp [e]
    · simp [e]

theorem freeL_alive {h : Heap} {n : Nat} (ha : h.l n = true) : ∃ h', freeL n h = some h' ∧ ∀ x, Alive h' x ↔ Alive h x ∧ x ≠ .leaf n := by
  refine ⟨_, if_pos ha, fun x => ?_⟩
  cases x with
  | null => exact ⟨False.elim, fun h => h.1⟩
  | node l => exact ⟨fun h => ⟨h, fun e => by cases e⟩, fun h => h.1⟩
  | leaf k =>
    show Function.update h.l n false k = true ↔ h.l k = true ∧ _
    rw [Function.update_apply]
    by_cases e : k = n
    · simp [e]
    · simp [e]

/-- `delete_node` frees the subtree. -/
theorem deleteNode_spec {g : G V} (hg : GI g) : ∀ (f : Nat) (p : Ptr) (h : Heap), PLive g p → p ≠ .null →
    (∀ n, p = .node n → (g.mem.nodes n).shift / 4 + 1 < f) → 0 < f → (∀ x, x ≠ .null → Below g.mem p x → Alive h x) →
    ∃ h', deleteNode g.mem f p h = some h' ∧ ∀ x, Alive h' x ↔ Alive h x ∧ ¬ Below g.mem p x := by
  intro f
  induction f with
  | zero => intro p h _ _ _ h0; omega
  | succ f ih =>
    intro p h hp hne hf _ hal
    cases p with
    | null => exact absurd rfl hne
    | leaf l =>
      obtain ⟨h', e, ha⟩ := freeL_alive (hal (.leaf l) hne (.refl _))
      refine ⟨h', e, fun x => ?_⟩
      rw [ha]
      refine and_congr_right fun _ => not_congr ⟨fun e => e ▸ .refl _, fun hb => ?_⟩
      cases hb
      rfl
    | node n =>
      have hn : g.ln n = .live := hp
      have loop : ∀ (L : List (Fin 16)) (h : Heap), L.Nodup → Alive h (.node n) →
          (∀ i ∈ L, ∀ x, x ≠ .null → Below g.mem ((g.mem.nodes n).child i) x → Alive h x) →
          ∃ h', L.foldlM (fun h i => if h.n n = true then
              if (g.mem.nodes n).child i = .null then some h else deleteNode g.mem f ((g.mem.nodes n).child i) h
            else none) h = some h' ∧
            ∀ x, Alive h' x ↔ Alive h x ∧ ¬ ∃ i ∈ L, Below g.mem ((g.mem.nodes n).child i) x := by
        intro L
        induction L with
        | nil => intro h _ _ _; exact ⟨h, rfl, fun x => by simp⟩
        | cons i L ihL =>
          intro h hnd han hall
          obtain ⟨hni, hnd⟩ := List.nodup_cons.1 hnd
          obtain ⟨k1, k2⟩ := hg.kid n hn i
          have hstep : ∃ h1, (if h.n n = true then
              if (g.mem.nodes n).child i = .null then some h else deleteNode g.mem f ((g.mem.nodes n).child i) h
            else none) = some h1 ∧ ∀ x, Alive h1 x ↔ Alive h x ∧ ¬ Below g.mem ((g.mem.nodes n).child i) x := by
            rw [if_pos (show h.n n = true from han)]
            by_cases hc : (g.mem.nodes n).child i = .null
            · refine ⟨h, if_pos hc, fun x => ⟨fun hx => ⟨hx, fun hb => ?_⟩, fun hx => hx.1⟩⟩
              rw [hc] at hb
              rw [below_null hb] at hx
              exact hx
            · rw [if_neg hc]
              refine ih _ h k1 hc ?_ ?_ (hall i (by simp))
              · intro c e
                rw [e] at k2
                have := hf n rfl
                have h1 := (hg.shp n hn).2.1
                have h2 := k2.1
                omega
              · have := hf n rfl
                omega
          obtain ⟨h1, e1, a1⟩ := hstep
          obtain ⟨h2, e2, a2⟩ := ihL h1 hnd ((a1 _).2 ⟨han, not_below_self hg hn i⟩) fun j hj x hx hb =>
            (a1 x).2 ⟨hall j (by simp [hj]) x hx hb, fun hb' => hni (below_slot hg hn hx hb' hb ▸ hj)⟩
          refine ⟨h2, ?_, fun x => ?_⟩
          · rw [List.foldlM_cons, e1]
            exact e2
          · rw [a2, a1]
            simp only [List.mem_cons, exists_eq_or_imp, not_or, and_assoc]
      obtain ⟨h1, e1, a1⟩ := loop (List.finRange 16) h (List.nodup_finRange 16) (hal _ hne (.refl _)) fun i _ x hx hb => hal x hx (.child i hb)
      have han : Alive h1 (.node n) := (a1 _).2 ⟨hal _ hne (.refl _), fun ⟨i, _, hb⟩ => not_below_self hg hn i hb⟩
      obtain ⟨h2, e2, a2⟩ := freeN_alive (h := h1) (n := n) han
      refine ⟨h2, ?_, fun x => ?_⟩
      · unfold deleteNode
        rw [e1]
        exact e2
      · rw [a2, a1, and_assoc]
        refine and_congr_right fun _ => ⟨fun ⟨h3, h4⟩ hb => ?_, fun hb => ⟨fun ⟨i, _, h⟩ => hb (.child i h), fun e => hb (e ▸ .refl _)⟩⟩
        cases hb with
        | refl => exact h4 rfl
        | child i hb => exact h3 ⟨i, List.mem_finRange i, hb⟩

theorem freeNodes_spec {m : Mem V} : ∀ (L : List Nat) (f : Nat) (p : Ptr) (h : Heap), ChainN m p L → L.Nodup → L.length ≤ f →
    (∀ n ∈ L, Alive h (.node n)) → ∃ h', freeNodes m f p h = some h' ∧ ∀ x, Alive h' x ↔ Alive h x ∧ ¬ ∃ n ∈ L, x = .node n := by
  intro L
  induction L with
  | nil =>
    intro f p h hc _ _ _
    cases p with
    | null => exact ⟨h, by unfold freeNodes; rfl, fun x => by simp⟩
    | leaf l => exact hc.elim
    | node n => exact hc.elim
  | cons y L ih =>
    intro f p h hc hnd hf ha
    cases p with
    | null => exact hc.elim
    | leaf l => exact hc.elim
    | node n =>
      obtain ⟨rfl, hc⟩ := hc
      obtain ⟨h1, h2⟩ := List.nodup_cons.1 hnd
      cases f with
      | zero => simp at hf
      | succ f =>
        obtain ⟨h', e, a⟩ := freeN_alive (h := h) (n := n) (ha n (by simp))
        obtain ⟨h'', e2, a2⟩ := ih f _ h' hc h2 (by simpa using hf) fun k hk => (a _).2 ⟨ha k (by simp [hk]), fun e => by cases e; exact h1 hk⟩
        refine ⟨h'', ?_, fun x => ?_⟩
        · unfold freeNodes
          rw [if_pos (show h.n n = true from ha n (by simp)), e]
          exact e2
        · rw [a2, a]
          simp only [List.mem_cons, exists_eq_or_imp, not_or, and_assoc, ne_eq]

theorem freeLeaves_spec {m : Mem V} : ∀ (L : List Nat) (f : Nat) (o : Option Nat) (h : Heap), ChainL m o L → L.Nodup → L.length ≤ f →
    (∀ n ∈ L, Alive h (.leaf n)) → ∃ h', freeLeaves m f o h = some h' ∧ ∀ x, Alive h' x ↔ Alive h x ∧ ¬ ∃ n ∈ L, x = .leaf n := by
  intro L
  induction L with
  | nil =>
    intro f o h hc _ _ _
    cases o with
    | none => exact ⟨h, by unfold freeLeaves; rfl, fun x => by simp⟩
    | some n => exact hc.elim
  | cons y L ih =>
    intro f o h hc hnd hf ha
    cases o with
    | none => exact hc.elim
    | some n =>
      obtain ⟨rfl, o, hv, hc⟩ := hc
      obtain ⟨h1, h2⟩ := List.nodup_cons.1 hnd
      cases f with
      | zero => simp at hf
      | succ f =>
        obtain ⟨h', e, a⟩ := freeL_alive (h := h) (n := n) (ha n (by simp))
        obtain ⟨h'', e2, a2⟩ := ih f _ h' hc h2 (by simpa using hf) fun k hk => (a _).2 ⟨ha k (by simp [hk]), fun e => by cases e; exact h1 hk⟩
        refine ⟨h'', ?_, fun x => ?_⟩
        · unfold freeLeaves
          rw [if_pos (show h.l n = true from ha n (by simp)), hv]
          dsimp only
          rw [e]
          exact e2
        · rw [a2, a]
          simp only [List.mem_cons, exists_eq_or_imp, not_or, and_assoc, ne_eq]

theorem freePending_spec {m : Mem V} : ∀ (L : List (Fin 16)) (h : Heap), L.Nodup →
    (∀ i j n, m.pendN i = some n → m.pendN j = some n → i = j) → (∀ i j l, m.pendL i = some l → m.pendL j = some l → i = j) →
    (∀ i ∈ L, ∀ n, m.pendN i = some n → Alive h (.node n)) → (∀ i ∈ L, ∀ l, m.pendL i = some l → Alive h (.leaf l)) →
    ∃ h', L.foldlM (fun h i => (freeN? (m.pendN i) h).bind (freeL? (m.pendL i))) h = some h' ∧
      ∀ x, Alive h' x ↔ Alive h x ∧ ¬ (∃ i ∈ L, ∃ n, m.pendN i = some n ∧ x = .node n) ∧ ¬ ∃ i ∈ L, ∃ l, m.pendL i = some l ∧ x = .leaf l := by
  intro L
  induction L with
  | nil => intro h _ _ _ _ _; exact ⟨h, rfl, fun x => by simp⟩
  | cons i L ih =>
    intro h hnd uN uL aN aL
    obtain ⟨hni, hnd⟩ := List.nodup_cons.1 hnd
    have s1 : ∃ h1, freeN? (m.pendN i) h = some h1 ∧ ∀ x, Alive h1 x ↔ Alive h x ∧ ¬ ∃ n, m.pendN i = some n ∧ x = .node n := by
      cases hp : m.pendN i with
      | none => exact ⟨h, rfl, fun x => by simp⟩
      | some n =>
        obtain ⟨h1, e, a⟩ := freeN_alive (h := h) (n := n) (aN i (by simp) n hp)
        exact ⟨h1, e, fun x => by rw [a]; simp⟩
    obtain ⟨h1, e1, a1⟩ := s1
    have s2 : ∃ h2, freeL? (m.pendL i) h1 = some h2 ∧ ∀ x, Alive h2 x ↔ Alive h1 x ∧ ¬ ∃ n, m.pendL i = some n ∧ x = .leaf n := by
      cases hp : m.pendL i with
      | none => exact ⟨h1, rfl, fun x => by simp⟩
      | some n =>
        obtain ⟨h2, e, a⟩ := freeL_alive (h := h1) (n := n) ((a1 _).2 ⟨aL i (by simp) n hp, fun ⟨_, _, e⟩ => by cases e⟩)
        exact ⟨h2, e, fun x => by rw [a]; simp⟩
    obtain ⟨h2, e2, a2⟩ := s2
    obtain ⟨h3, e3, a3⟩ := ih h2 hnd uN uL
      (fun j hj n hn => (a2 _).2 ⟨(a1 _).2 ⟨aN j (by simp [hj]) n hn, fun ⟨k, hk, e⟩ => by cases e; exact hni (uN i j n hk hn ▸ hj)⟩, fun ⟨_, _, e⟩ => by cases e⟩)
      (fun j hj n hn => (a2 _).2 ⟨(a1 _).2 ⟨aL j (by simp [hj]) n hn, fun ⟨_, _, e⟩ => by cases e⟩, fun ⟨k, hk, e⟩ => by cases e; exact hni (uL i j n hk hn ▸ hj)⟩)
    refine ⟨h3, ?_, fun x => ?_⟩
    · rw [List.foldlM_cons, e1]
      show (freeL? (m.pendL i) h1 >>= _) = _
      rw [e2]
      exact e3
    · rw [a3, a2, a1]
      simp only [List.mem_cons, exists_eq_or_imp, not_or]
      tauto

/-- Destruction, when nobody uses the tree. -/
theorem delete_idle {g : G V} (hi : Idle g) {fuel : Nat} (hf : 17 + g.mem.nextN + g.mem.nextL ≤ fuel) :
    ∃ h, delete g.mem fuel (Spec.obtained g.mem) = some h ∧ Spec.Empty h := by
  obtain ⟨hg, -, LN, LL, r, fu⟩ := hi
  have obN : ∀ n, Alive (Spec.obtained g.mem) (.node n) ↔ n < g.mem.nextN := fun n => by simp [Alive, Spec.obtained]
  have obL : ∀ n, Alive (Spec.obtained g.mem) (.leaf n) ↔ n < g.mem.nextL := fun n => by simp [Alive, Spec.obtained]
  have ltN : ∀ n, g.ln n ≠ .off → n < g.mem.nextN := fun n h => Nat.lt_of_not_le fun hle => h (r.freshN n hle)
  have ltL : ∀ n, g.ll n ≠ .off → n < g.mem.nextL := fun n h => Nat.lt_of_not_le fun hle => h (r.freshL n hle)
  have s1 : ∃ h1, deleteRoot g.mem fuel (Spec.obtained g.mem) = some h1 ∧
      ∀ x, Alive h1 x ↔ Alive (Spec.obtained g.mem) x ∧ ¬ PLive g x := by
    unfold deleteRoot
    by_cases hr : g.mem.root = .null
    · refine ⟨_, if_pos hr, fun x => ⟨fun hx => ⟨hx, fun hl => ?_⟩, fun h => h.1⟩⟩
      have hx0 : x ≠ .null := fun e => by rw [e] at hx; exact hx
      have := live_below hg hx0 hl
      rw [hr] at this
      exact hx0 (below_null this)
    · rw [if_neg hr]
      obtain ⟨h1, e, a⟩ := deleteNode_spec hg fuel g.mem.root (Spec.obtained g.mem) hg.root hr
        (fun n hn => by
          have h := hg.root
          rw [hn] at h
          have := (hg.shp n h).1
          omega) (by omega) (fun x hx hb => by
          have := (below_fits hg hb hg.root).1
          cases x with
          | null => exact absurd rfl hx
          | leaf l => exact (obL l).2 (ltL l (by rw [show g.ll l = .live from this]; simp))
          | node n => exact (obN n).2 (ltN n (by rw [show g.ln n = .live from this]; simp)))
      refine ⟨h1, e, fun x => ?_⟩
      rw [a]
      refine and_congr_right fun hx => not_congr ⟨fun hb => (below_fits hg hb hg.root).1, fun hl => live_below hg (fun e => by rw [e] at hx; exact hx) hl⟩
  obtain ⟨h1, e1, a1⟩ := s1
  have lenN : LN.length ≤ g.mem.nextN := by
    have := (List.Nodup.subperm r.nodupN (l₂ := List.range g.mem.nextN) fun n hn => List.mem_range.2 (r.offN n hn).2).length_le
    simpa using this
  have lenL : LL.length ≤ g.mem.nextL := by
    have := (List.Nodup.subperm r.nodupL (l₂ := List.range g.mem.nextL) fun n hn => List.mem_range.2 (r.offL n hn).2).length_le
    simpa using this
  obtain ⟨h2, e2, a2⟩ := freeNodes_spec LN fuel g.mem.delNode h1 r.chainN r.nodupN (by omega)
    fun n hn => (a1 _).2 ⟨(obN n).2 (r.offN n hn).2, fun hl => absurd (r.offN n hn).1 (by rw [show g.ln n = .live from hl]; simp)⟩
  obtain ⟨h3, e3, a3⟩ := freeLeaves_spec LL fuel g.mem.delLeaf h2 r.chainL r.nodupL (by omega)
    fun n hn => (a2 _).2 ⟨(a1 _).2 ⟨(obL n).2 (r.offL n hn).2, fun hl => absurd (r.offL n hn).1 (by rw [show g.ll n = .live from hl]; simp)⟩, fun ⟨_, _, e⟩ => by cases e⟩
  have pN : ∀ i n, g.mem.pendN i = some n → ∃ c, g.ln n = .dead c ∧ delIdx (c - 1) = i := fun i n h => by
    obtain ⟨c, h1, -, -, h4⟩ := r.pendN i n (by simp) h
    exact ⟨c, h1, h4⟩
  have pL : ∀ i n, g.mem.pendL i = some n → ∃ c, g.ll n = .dead c ∧ delIdx (c - 1) = i := fun i n h => by
    obtain ⟨c, h1, -, -, h4⟩ := r.pendL i n (by simp) h
    exact ⟨c, h1, h4⟩
  obtain ⟨h4, e4, a4⟩ := freePending_spec (m := g.mem) (List.finRange 16) h3 (List.nodup_finRange 16)
    (fun i j n hi hj => by
      obtain ⟨c, c1, c2⟩ := pN i n hi
      obtain ⟨d, d1, d2⟩ := pN j n hj
      rw [c1] at d1; cases d1
      exact c2.symm.trans d2)
    (fun i j n hi hj => by
      obtain ⟨c, c1, c2⟩ := pL i n hi
      obtain ⟨d, d1, d2⟩ := pL j n hj
      rw [c1] at d1; cases d1
      exact c2.symm.trans d2)
    (fun i _ n hn => by
      obtain ⟨c, c1, -⟩ := pN i n hn
      refine (a3 _).2 ⟨(a2 _).2 ⟨(a1 _).2 ⟨(obN n).2 (ltN n (by rw [c1]; simp)), fun hl => ?_⟩, ?_⟩, fun ⟨_, _, e⟩ => by cases e⟩
      · rw [show g.ln n = .live from hl] at c1; cases c1
      · rintro ⟨k, hk, e⟩
        cases e
        rw [(r.offN n hk).1] at c1; cases c1)
    (fun i _ n hn => by
      obtain ⟨c, c1, -⟩ := pL i n hn
      refine (a3 _).2 ⟨(a2 _).2 ⟨(a1 _).2 ⟨(obL n).2 (ltL n (by rw [c1]; simp)), fun hl => ?_⟩, fun ⟨_, _, e⟩ => by cases e⟩, ?_⟩
      · rw [show g.ll n = .live from hl] at c1; cases c1
      · rintro ⟨k, hk, e⟩
        cases e
        rw [(r.offL n hk).1] at c1; cases c1)
  refine ⟨h4, ?_, fun n => ?_, fun l => ?_⟩
  · unfold delete
    rw [e1]
    show (freeNodes g.mem fuel g.mem.delNode h1 >>= _) = _
    rw [e2]
    show (freeLeaves g.mem fuel g.mem.delLeaf h2 >>= _) = _
    rw [e3]
    exact e4
  · cases hn : h4.n n with
    | false => rfl
    | true =>
      obtain ⟨k1, k2, -⟩ := (a4 (.node n)).1 hn
      obtain ⟨k1, -⟩ := (a3 _).1 k1
      obtain ⟨k1, k3⟩ := (a2 _).1 k1
      obtain ⟨k1, k4⟩ := (a1 _).1 k1
      rcases fu.N n ((obN n).1 k1) with h | h | ⟨i, h⟩ | h
      · exact absurd h k4
      · exact absurd ⟨n, h, rfl⟩ k3
      · exact absurd ⟨i, List.mem_finRange i, n, h, rfl⟩ k2
      · cases h
  · cases hn : h4.l l with
    | false => rfl
    | true =>
      obtain ⟨k1, -, k2⟩ := (a4 (.leaf l)).1 hn
      obtain ⟨k1, k3⟩ := (a3 _).1 k1
      obtain ⟨k1, -⟩ := (a2 _).1 k1
      obtain ⟨k1, k4⟩ := (a1 _).1 k1
      rcases fu.L l ((obL l).1 k1) with h | h | ⟨i, h⟩ | h
      · exact absurd h k4
      · exact absurd ⟨l, h, rfl⟩ k3
      · exact absurd ⟨i, List.mem_finRange i, l, h, rfl⟩ k2
      · cases h

end Verif.Critnib.Conc
