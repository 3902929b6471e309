import Verif.Critnib.ConcChange2
import Verif.Critnib.ConcSpec
import Verif.Critnib.Lemmas
/-! # Writers: what is true between operations, and stores that do not matter to readers -/
namespace Verif.Critnib.Conc
open Verif.Critnib

variable {V : Type}

theorem stores_append (m : Mem V) (a b : List (Store V)) :
    m.stores (a ++ b) = (m.stores a).stores b := by
  simp [Mem.stores, List.foldl_append]

theorem stores_cons (m : Mem V) (a : Store V) (b : List (Store V)) :
    m.stores (a :: b) = (m.store a).stores b := rfl

theorem stores_nil (m : Mem V) : m.stores [] = m := rfl

/-- The list of free nodes. -/
def ChainN (m : Mem V) : Ptr → List Nat → Prop
  | .null, [] => True
  | .node n, x :: L => n = x ∧ ChainN m ((m.nodes n).child 0) L
  | _, _ => False

/-- The list of free leaves. -/
def ChainL (m : Mem V) : Option Nat → List Nat → Prop
  | none, [] => True
  | some k, x :: L => k = x ∧ ∃ o, (m.leaves k).val = .link o ∧ ChainL m o L
  | _, _ => False

theorem chainN_congr {m m' : Mem V} {L : List Nat} :
    ∀ {p : Ptr}, (∀ x ∈ L, (m'.nodes x).child 0 = (m.nodes x).child 0) → ChainN m p L →
      ChainN m' p L := by
  induction L with
  | nil => intro p _ h; cases p <;> exact h
  | cons x L ih =>
    intro p hx h
    cases p with
    | null => exact h
    | leaf l => exact h
    | node n =>
      obtain ⟨rfl, h⟩ := h
      refine ⟨rfl, ?_⟩
      rw [hx n (by simp)]
      exact ih (fun y hy => hx y (by simp [hy])) h

theorem chainL_congr {m m' : Mem V} {L : List Nat} :
    ∀ {o : Option Nat}, (∀ x ∈ L, (m'.leaves x).val = (m.leaves x).val) → ChainL m o L →
      ChainL m' o L := by
  induction L with
  | nil => intro o _ h; cases o <;> exact h
  | cons x L ih =>
    intro o hx h
    cases o with
    | none => exact h
    | some k =>
      obtain ⟨rfl, o, h1, h2⟩ := h
      exact ⟨rfl, o, by rw [hx k (by simp)]; exact h1, ih (fun y hy => hx y (by simp [hy])) h2⟩

/-- The lists of free items, the pending items (except in slot `X`) and the items not yet handed
out by the host. -/
structure Res (g : G V) (X : Option (Fin 16)) (LN LL : List Nat) : Prop where
  nodupN : LN.Nodup
  chainN : ChainN g.mem g.mem.delNode LN
  offN : ∀ n ∈ LN, g.ln n = .off ∧ n < g.mem.nextN
  nodupL : LL.Nodup
  chainL : ChainL g.mem g.mem.delLeaf LL
  offL : ∀ l ∈ LL, g.ll l = .off ∧ l < g.mem.nextL
  pendN : ∀ i n, X ≠ some i → g.mem.pendN i = some n →
    ∃ c, g.ln n = .dead c ∧ 1 ≤ c ∧ c ≤ g.mem.count ∧ delIdx (c - 1) = i
  pendL : ∀ i l, X ≠ some i → g.mem.pendL i = some l →
    ∃ c, g.ll l = .dead c ∧ 1 ≤ c ∧ c ≤ g.mem.count ∧ delIdx (c - 1) = i
  freshN : ∀ n, g.mem.nextN ≤ n → g.ln n = .off
  freshL : ∀ l, g.mem.nextL ≤ l → g.ll l = .off

theorem Res.keep {g g' : G V} {X : Option (Fin 16)} {LN LL : List Nat} (r : Res g X LN LL)
    (hdn : g'.mem.delNode = g.mem.delNode) (hdl : g'.mem.delLeaf = g.mem.delLeaf)
    (hpn : g'.mem.pendN = g.mem.pendN) (hpl : g'.mem.pendL = g.mem.pendL)
    (hnn : g'.mem.nextN = g.mem.nextN) (hnl : g'.mem.nextL = g.mem.nextL)
    (hc : g'.mem.count = g.mem.count)
    (hN : ∀ x ∈ LN, g'.ln x = .off ∧ (g'.mem.nodes x).child 0 = (g.mem.nodes x).child 0)
    (hL : ∀ x ∈ LL, g'.ll x = .off ∧ (g'.mem.leaves x).val = (g.mem.leaves x).val)
    (dN : ∀ x c, g.ln x = .dead c → g'.ln x = .dead c)
    (dL : ∀ x c, g.ll x = .dead c → g'.ll x = .dead c)
    (fN : ∀ x, g.mem.nextN ≤ x → g'.ln x = .off) (fL : ∀ x, g.mem.nextL ≤ x → g'.ll x = .off) :
    Res g' X LN LL where
  nodupN := r.nodupN
  chainN := by rw [hdn]; exact chainN_congr (fun x hx => (hN x hx).2) r.chainN
  offN := fun n hn => ⟨(hN n hn).1, by rw [hnn]; exact (r.offN n hn).2⟩
  nodupL := r.nodupL
  chainL := by rw [hdl]; exact chainL_congr (fun x hx => (hL x hx).2) r.chainL
  offL := fun n hn => ⟨(hL n hn).1, by rw [hnl]; exact (r.offL n hn).2⟩
  pendN := by
    intro i n hi h
    rw [hpn] at h; rw [hc]
    obtain ⟨c, h1, h2⟩ := r.pendN i n hi h
    exact ⟨c, dN n c h1, h2⟩
  pendL := by
    intro i n hi h
    rw [hpl] at h; rw [hc]
    obtain ⟨c, h1, h2⟩ := r.pendL i n hi h
    exact ⟨c, dL n c h1, h2⟩
  freshN := by rw [hnn]; exact fN
  freshL := by rw [hnl]; exact fL

/-- Every item the host has handed out is in the tree, in a list of free items, pending, or one of `EN`, `EL`. -/
structure Full (g : G V) (LN LL EN EL : List Nat) : Prop where
  N : ∀ n, n < g.mem.nextN → g.ln n = .live ∨ n ∈ LN ∨ (∃ i, g.mem.pendN i = some n) ∨ n ∈ EN
  L : ∀ l, l < g.mem.nextL → g.ll l = .live ∨ l ∈ LL ∨ (∃ i, g.mem.pendL i = some l) ∨ l ∈ EL

theorem Full.keep {g g' : G V} {LN LL EN EL LN' LL' EN' EL' : List Nat} (f : Full g LN LL EN EL)
    (hpn : g'.mem.pendN = g.mem.pendN) (hpl : g'.mem.pendL = g.mem.pendL)
    (hnn : g'.mem.nextN = g.mem.nextN) (hnl : g'.mem.nextL = g.mem.nextL)
    (lN : ∀ x, g.ln x = .live → g'.ln x = .live ∨ x ∈ EN') (lL : ∀ x, g.ll x = .live → g'.ll x = .live ∨ x ∈ EL')
    (oN : ∀ x, x ∈ LN ∨ x ∈ EN → x ∈ LN' ∨ x ∈ EN' ∨ g'.ln x = .live)
    (oL : ∀ x, x ∈ LL ∨ x ∈ EL → x ∈ LL' ∨ x ∈ EL' ∨ g'.ll x = .live) : Full g' LN' LL' EN' EL' where
  N := fun n hn => by
    rw [hnn] at hn
    rw [hpn]
    rcases f.N n hn with h | h | h | h
    · rcases lN n h with h | h
      · exact .inl h
      · exact .inr (.inr (.inr h))
    · rcases oN n (.inl h) with h | h | h
      · exact .inr (.inl h)
      · exact .inr (.inr (.inr h))
      · exact .inl h
    · exact .inr (.inr (.inl h))
    · rcases oN n (.inr h) with h | h | h
      · exact .inr (.inl h)
      · exact .inr (.inr (.inr h))
      · exact .inl h
  L := fun n hn => by
    rw [hnl] at hn
    rw [hpl]
    rcases f.L n hn with h | h | h | h
    · rcases lL n h with h | h
      · exact .inl h
      · exact .inr (.inr (.inr h))
    · rcases oL n (.inl h) with h | h | h
      · exact .inr (.inl h)
      · exact .inr (.inr (.inr h))
      · exact .inl h
    · exact .inr (.inr (.inl h))
    · rcases oL n (.inr h) with h | h | h
      · exact .inr (.inl h)
      · exact .inr (.inr (.inr h))
      · exact .inl h

/-- The same labels and lists. -/
theorem Full.same {g g' : G V} {LN LL EN EL : List Nat} (f : Full g LN LL EN EL)
    (hpn : g'.mem.pendN = g.mem.pendN) (hpl : g'.mem.pendL = g.mem.pendL)
    (hnn : g'.mem.nextN = g.mem.nextN) (hnl : g'.mem.nextL = g.mem.nextL)
    (lN : g'.ln = g.ln) (lL : g'.ll = g.ll) : Full g' LN LL EN EL :=
  f.keep hpn hpl hnn hnl (fun x h => .inl (by rw [lN]; exact h)) (fun x h => .inl (by rw [lL]; exact h))
    (fun x h => h.elim .inl fun h => .inr (.inl h)) (fun x h => h.elim .inl fun h => .inr (.inl h))

/-- Every inner node has at least two children. -/
def Two (g : G V) : Prop :=
  ∀ n, g.ln n = .live → ∃ i j, i ≠ j ∧ (g.mem.nodes n).child i ≠ .null ∧ (g.mem.nodes n).child j ≠ .null

/-- True when nobody holds the mutex. -/
def Idle (g : G V) : Prop := GI g ∧ Two g ∧ ∃ LN LL, Res g none LN LL ∧ Full g LN LL [] []

/-! ## Sequences of stores -/

/-- The effect of one store on the map: none, or that of the operation (once). -/
def Eff (op : Spec.Op V) (out : Spec.Out V) (d : Bool) (g g' : G V) (d' : Bool) : Prop :=
  (absMap g'.mem = absMap g.mem ∧ d' = d) ∨
  (d = false ∧ d' = true ∧ Conc.Spec.Allowed (absMap g.mem) op out ∧
    absMap g'.mem = Verif.Critnib.Spec.after (absMap g.mem) op out)

/-- The stores `ss` carry out the operation, each leaving readers what they rely on. -/
def AllS (op : Spec.Op V) (out : Spec.Out V) : Bool → G V → List (Store V) → Prop
  | d, g, [] => d = true ∧ Idle g
  | d, g, a :: ss => ∃ g' d', g'.mem = g.mem.store a ∧ Tr g g' ∧ GI g' ∧ Eff op out d g g' d' ∧
      AllS op out d' g' ss

/-- The stores `ss` carry out the operation; it may take effect before the first of them. -/
def Sim (op : Spec.Op V) (out : Spec.Out V) (g : G V) (ss : List (Store V)) : Prop :=
  AllS op out false g ss ∨
  (Conc.Spec.Allowed (absMap g.mem) op out ∧
    Verif.Critnib.Spec.after (absMap g.mem) op out = absMap g.mem ∧ AllS op out true g ss)

section
variable {op : Spec.Op V} {out : Spec.Out V}

theorem allS_quiet {d : Bool} {g g' : G V} {a : Store V} {ss : List (Store V)} (hg : GI g)
    (q : Quiet g g') (hm : g'.mem = g.mem.store a) (h : AllS op out d g' ss) :
    AllS op out d g (a :: ss) :=
  ⟨g', d, hm, q.tr hg, q.gi hg, .inl ⟨q.abs hg, rfl⟩, h⟩

/-- A store that readers with a valid view cannot see. -/
def Priv (ln ll : Nat → Lab) : Store V → Prop
  | .slot .root _ => False
  | .slot (.child n _) _ => ln n = .off
  | .path n _ => ln n = .off
  | .shift n _ => ln n = .off
  | .key l _ => ll l = .off
  | .val l _ => ll l = .off
  | _ => True

/-- The same labels after some stores. -/
def G.after (g : G V) (ss : List (Store V)) : G V := ⟨g.mem.stores ss, g.ln, g.ll⟩

theorem quiet_priv {g : G V} {a : Store V} (h : Priv g.ln g.ll a) :
    Quiet g ⟨g.mem.store a, g.ln, g.ll⟩ := by
  have hnN : ∀ n, g.ln n ≠ .off → (g.mem.store a).nodes n = g.mem.nodes n := by
    intro n hn
    cases a with
    | slot s p =>
      cases s with
      | root => cases h
      | child x i =>
        have : n ≠ x := fun e => hn (e ▸ h)
        simp [Mem.store, this]
    | path x w =>
      have : n ≠ x := fun e => hn (e ▸ h)
      simp [Mem.store, this]
    | shift x w =>
      have : n ≠ x := fun e => hn (e ▸ h)
      simp [Mem.store, this]
    | _ => rfl
  have hnL : ∀ n, g.ll n ≠ .off → (g.mem.store a).leaves n = g.mem.leaves n := by
    intro n hn
    cases a with
    | slot s p => rw [slot_leaves]
    | key x w =>
      have : n ≠ x := fun e => hn (e ▸ h)
      simp [Mem.store, this]
    | val x w =>
      have : n ≠ x := fun e => hn (e ▸ h)
      simp [Mem.store, this]
    | _ => rfl
  refine ⟨?_, ?_, fun n hn => ⟨hn, hnN n (by simp [hn])⟩, fun n hn => ⟨hn, hnL n (by simp [hn])⟩,
    fun _ h => h, fun _ h => h, fun n c hn _ => ⟨hn, hnN n (by simp [hn])⟩,
    fun n c hn _ => ⟨hn, hnL n (by simp [hn])⟩⟩
  · cases a with
    | slot s p =>
      cases s with
      | root => cases h
      | child x i => rfl
    | _ => rfl
  · cases a with
    | slot s p => show _ ≤ (g.mem.store _).count; rw [slot_count]; exact Nat.le_refl _
    | incCount => exact Nat.le_succ _
    | _ => exact Nat.le_refl _

/-- Private stores, then the rest. -/
theorem allS_priv {d : Bool} {rest : List (Store V)} (ss : List (Store V)) :
    ∀ {g : G V}, GI g → (∀ a ∈ ss, Priv g.ln g.ll a) → AllS op out d (g.after ss) rest →
      AllS op out d g (ss ++ rest) := by
  induction ss with
  | nil => intro g _ _ h; exact h
  | cons a ss ih =>
    intro g hg hp h
    have q := quiet_priv (hp a (by simp))
    exact allS_quiet hg q rfl (ih (q.gi hg) (fun b hb => hp b (by simp [hb])) h)

theorem gi_priv (ss : List (Store V)) : ∀ {g : G V}, GI g → (∀ a ∈ ss, Priv g.ln g.ll a) →
    GI (g.after ss) ∧ absMap (g.after ss).mem = absMap g.mem ∧
      (g.after ss).mem.root = g.mem.root ∧
      (∀ n, g.ln n = .live → (g.after ss).mem.nodes n = g.mem.nodes n) ∧
      (∀ l, g.ll l = .live → (g.after ss).mem.leaves l = g.mem.leaves l) := by
  induction ss with
  | nil => intro g hg _; exact ⟨hg, rfl, rfl, fun _ _ => rfl, fun _ _ => rfl⟩
  | cons a ss ih =>
    intro g hg hp
    have q := quiet_priv (hp a (by simp))
    obtain ⟨h1, h2, h3, h4, h5⟩ := ih (q.gi hg) (fun b hb => hp b (by simp [hb]))
    exact ⟨h1, h2.trans (q.abs hg), h3.trans q.root, fun n hn => (h4 n hn).trans (q.liveN n hn).2,
      fun n hn => (h5 n hn).trans (q.liveL n hn).2⟩

/-- The one store at which the operation takes effect. -/
theorem allS_commit {g g' : G V} {a : Store V} {ss : List (Store V)} (hm : g'.mem = g.mem.store a)
    (ht : Tr g g') (hg' : GI g') (ha : Conc.Spec.Allowed (absMap g.mem) op out)
    (he : absMap g'.mem = Verif.Critnib.Spec.after (absMap g.mem) op out)
    (h : AllS op out true g' ss) : AllS op out false g (a :: ss) :=
  ⟨g', true, hm, ht, hg', .inr ⟨rfl, rfl, ha, he⟩, h⟩

end

theorem two_priv (ss : List (Store V)) {g : G V} (hg : GI g) (hp : ∀ a ∈ ss, Priv g.ln g.ll a)
    (ht : Two g) : Two (g.after ss) := by
  intro n hn
  rw [(gi_priv ss hg hp).2.2.2.1 n hn]
  exact ht n hn

/-! ## The search of writers -/

theorem masked_iff {g : G V} (hg : GI g) {n : Nat} (hn : g.ln n = .live) (key : W) :
    key &&& pathMask (g.mem.nodes n).shift = (g.mem.nodes n).path ↔ Fits g.mem key (.node n) := by
  rw [masked_eq_iff (hg.shp n hn).2.2]
  rfl

theorem descend_spec {g : G V} (hg : GI g) (key : W) : ∀ (f : Nat) (s : Slot) (p : Ptr),
    g.mem.load s = p → Through g key s → 1 ≤ f →
    (∀ n, p = .node n → (g.mem.nodes n).shift / 4 + 2 ≤ f) →
    ∃ s' p', descend g.mem key f s p = some (s', p') ∧ g.mem.load s' = p' ∧ Through g key s' ∧
      ∀ n, p' = .node n → ¬ Fits g.mem key p' := by
  intro f
  induction f with
  | zero => intro _ _ _ _ h; omega
  | succ f ih =>
    intro s p hs ht _ hf
    cases p with
    | null => exact ⟨s, .null, rfl, hs, ht, fun n h => by cases h⟩
    | leaf l => exact ⟨s, .leaf l, rfl, hs, ht, fun n h => by cases h⟩
    | node n =>
      have hl : g.ln n = .live := by
        have := on_live hg (ht.on hg)
        rw [hs] at this; exact this
      have hfn := hf n rfl
      unfold descend
      by_cases hm : key &&& pathMask (g.mem.nodes n).shift = (g.mem.nodes n).path
      · rw [if_pos hm]
        have hfit := (masked_iff hg hl key).1 hm
        have hsl := idx_slot hfit
        refine ih (.child n (idx key (g.mem.nodes n).shift)) _ rfl ⟨hl, hsl⟩ (by omega) ?_
        intro c hc
        have hu := (hg.kid n hl (idx key (g.mem.nodes n).shift)).2
        rw [hc] at hu
        have := hu.1
        omega
      · rw [if_neg hm]
        exact ⟨s, .node n, rfl, hs, ht, fun _ _ => mt (masked_iff hg hl key).2 hm⟩

/-- The loop of `critnib_remove`. -/
theorem descendR_spec {g : G V} (hg : GI g) (key : W) : ∀ (f : Nat) (s : Slot) (n : Nat),
    g.mem.load s = .node n → (∀ a i, s = .child a i → g.ln a = .live) →
    On g.mem key (.node n) → (g.mem.nodes n).shift / 4 + 1 ≤ f →
    (descendR g.mem key f s n = some .missing ∧ On g.mem key .null) ∨
    ∃ np n' i l, descendR g.mem key f s n = some (.found np n' i l) ∧ g.mem.load np = .node n' ∧
      (∀ a i, np = .child a i → g.ln a = .live) ∧ g.ln n' = .live ∧
      (g.mem.nodes n').child i = .leaf l ∧ On g.mem key (.leaf l) := by
  intro f
  induction f with
  | zero => intro _ _ _ _ _ h; omega
  | succ f ih =>
    intro s n hs hsl ho hf
    have hl : g.ln n = .live := on_live hg ho
    have hof := on_follow ho
    unfold descendR
    cases hc : (g.mem.nodes n).child (idx key (g.mem.nodes n).shift) with
    | null => rw [hc] at hof; exact .inl ⟨rfl, hof⟩
    | leaf l =>
      rw [hc] at hof
      exact .inr ⟨s, n, _, l, rfl, hs, hsl, hl, hc, hof⟩
    | node c =>
      rw [hc] at hof
      have hu := (hg.kid n hl (idx key (g.mem.nodes n).shift)).2
      rw [hc] at hu
      have := hu.1
      exact ih (.child n (idx key (g.mem.nodes n).shift)) c hc
        (fun a i e => by cases e; exact hl) hof (by omega)

end Verif.Critnib.Conc
