import Verif.Critnib.ConcInsert2
/-! # `critnib_remove` carries out a removal -/
namespace Verif.Critnib.Conc
open Verif.Critnib

variable {V : Type}

theorem delIdx_gap {c n : Nat} (h1 : 1 ≤ c) (h2 : c ≤ n) (h : delIdx (c - 1) = delIdx n) :
    c + 16 ≤ n + 1 := by
  have := congrArg Fin.val h
  simp only [delIdx, Fin.ofNat] at this
  omega

/-! ## Freeing the items pending in a slot -/

theorem freeNode_opt {g : G V} {X : Option (Fin 16)} {LN LL : List Nat} (r : Res g X LN LL)
    (o : Option Nat) (ho : ∀ k, o = some k → g.ln k = .off ∧ k ∉ LN ∧ k < g.mem.nextN) :
    (∀ a ∈ freeNode g.mem o, Priv g.ln g.ll a) ∧ ∃ LN', Res (g.after (freeNode g.mem o)) X LN' LL ∧
      (∀ x ∈ LN, x ∈ LN') ∧ ∀ k, o = some k → k ∈ LN' := by
  cases o with
  | none => exact ⟨by simp [freeNode], LN, r, fun _ h => h, fun _ h => by cases h⟩
  | some k =>
    obtain ⟨h1, h2, h3⟩ := ho k rfl
    obtain ⟨h4, h5⟩ := freeNode_spec r h1 h2 h3
    exact ⟨h4, _, h5, fun _ h => List.mem_cons_of_mem _ h, fun _ h => by cases h; exact List.mem_cons_self⟩

theorem freeLeaf_opt {g : G V} {X : Option (Fin 16)} {LN LL : List Nat} (r : Res g X LN LL)
    (o : Option Nat) (ho : ∀ k, o = some k → g.ll k = .off ∧ k ∉ LL ∧ k < g.mem.nextL) :
    (∀ a ∈ freeLeaf g.mem o, Priv g.ln g.ll a) ∧ ∃ LL', Res (g.after (freeLeaf g.mem o)) X LN LL' ∧
      (∀ x ∈ LL, x ∈ LL') ∧ ∀ k, o = some k → k ∈ LL' := by
  cases o with
  | none => exact ⟨by simp [freeLeaf], LL, r, fun _ h => h, fun _ h => by cases h⟩
  | some k =>
    obtain ⟨h1, h2, h3⟩ := ho k rfl
    obtain ⟨h4, h5⟩ := freeLeaf_spec r h1 h2 h3
    exact ⟨h4, _, h5, fun _ h => List.mem_cons_of_mem _ h, fun _ h => by cases h; exact List.mem_cons_self⟩

/-- The labels after the pending item `o` was given up. -/
def give (f : Nat → Lab) (o : Option Nat) : Nat → Lab := fun x => if o = some x then .off else f x

/-- The state after `remove_count` was incremented. -/
def G.tick (g : G V) : G V :=
  ⟨g.mem.store .incCount, give g.ln (g.mem.pendN (delIdx g.mem.count)),
    give g.ll (g.mem.pendL (delIdx g.mem.count))⟩

section tick
variable {g : G V} {LN LL : List Nat}

theorem give_off {f : Nat → Lab} {o : Option Nat} {x : Nat} (h : f x = .off) : give f o x = .off := by
  unfold give; split <;> trivial

theorem tick_quiet (r : Res g none LN LL) : Quiet g g.tick := by
  have hN : ∀ n, g.mem.pendN (delIdx g.mem.count) = some n → ∃ c, g.ln n = .dead c ∧ c + 16 ≤ g.mem.count + 1 := by
    intro n h
    obtain ⟨c, h1, h2, h3, h4⟩ := r.pendN _ n (by simp) h
    exact ⟨c, h1, delIdx_gap h2 h3 h4⟩
  have hL : ∀ n, g.mem.pendL (delIdx g.mem.count) = some n → ∃ c, g.ll n = .dead c ∧ c + 16 ≤ g.mem.count + 1 := by
    intro n h
    obtain ⟨c, h1, h2, h3, h4⟩ := r.pendL _ n (by simp) h
    exact ⟨c, h1, delIdx_gap h2 h3 h4⟩
  refine ⟨rfl, Nat.le_succ _, ?_, ?_, ?_, ?_, ?_, ?_⟩
  · intro n hn
    refine ⟨?_, rfl⟩
    show give _ _ n = _
    unfold give
    rw [if_neg]
    · exact hn
    · intro h; obtain ⟨c, h1, _⟩ := hN n h; rw [hn] at h1; cases h1
  · intro n hn
    refine ⟨?_, rfl⟩
    show give _ _ n = _
    unfold give
    rw [if_neg]
    · exact hn
    · intro h; obtain ⟨c, h1, _⟩ := hL n h; rw [hn] at h1; cases h1
  · intro n hn
    have h : give g.ln _ n = .live := hn
    unfold give at h
    split at h
    · cases h
    · exact h
  · intro n hn
    have h : give g.ll _ n = .live := hn
    unfold give at h
    split at h
    · cases h
    · exact h
  · intro n c hn hc
    refine ⟨?_, rfl⟩
    show give _ _ n = _
    unfold give
    rw [if_neg]
    · exact hn
    · intro h; obtain ⟨c', h1, h2⟩ := hN n h
      rw [hn] at h1; cases h1
      have : g.mem.count + 1 < c + 16 := hc
      omega
  · intro n c hn hc
    refine ⟨?_, rfl⟩
    show give _ _ n = _
    unfold give
    rw [if_neg]
    · exact hn
    · intro h; obtain ⟨c', h1, h2⟩ := hL n h
      rw [hn] at h1; cases h1
      have : g.mem.count + 1 < c + 16 := hc
      omega

theorem tick_res (r : Res g none LN LL) : Res g.tick (some (delIdx g.mem.count)) LN LL where
  nodupN := r.nodupN
  chainN := chainN_congr (m := g.mem) (fun _ _ => rfl) r.chainN
  offN := fun n hn => ⟨give_off (r.offN n hn).1, (r.offN n hn).2⟩
  nodupL := r.nodupL
  chainL := chainL_congr (m := g.mem) (fun _ _ => rfl) r.chainL
  offL := fun n hn => ⟨give_off (r.offL n hn).1, (r.offL n hn).2⟩
  pendN := by
    intro i n hi h
    obtain ⟨c, h1, h2, h3, h4⟩ := r.pendN i n (by simp) h
    refine ⟨c, ?_, h2, Nat.le_succ_of_le h3, h4⟩
    show give _ _ n = _
    unfold give
    rw [if_neg]
    · exact h1
    · intro hp
      obtain ⟨c', h1', h2', h3', h4'⟩ := r.pendN _ n (by simp) hp
      rw [h1] at h1'; cases h1'
      exact hi (congrArg some (h4'.symm.trans h4))
  pendL := by
    intro i n hi h
    obtain ⟨c, h1, h2, h3, h4⟩ := r.pendL i n (by simp) h
    refine ⟨c, ?_, h2, Nat.le_succ_of_le h3, h4⟩
    show give _ _ n = _
    unfold give
    rw [if_neg]
    · exact h1
    · intro hp
      obtain ⟨c', h1', h2', h3', h4'⟩ := r.pendL _ n (by simp) hp
      rw [h1] at h1'; cases h1'
      exact hi (congrArg some (h4'.symm.trans h4))
  freshN := fun n hn => give_off (r.freshN n hn)
  freshL := fun n hn => give_off (r.freshL n hn)

theorem tick_goneN (r : Res g none LN LL) : ∀ k, g.mem.pendN (delIdx g.mem.count) = some k →
    g.tick.ln k = .off ∧ k ∉ LN ∧ k < g.tick.mem.nextN := by
  intro k hk
  obtain ⟨c, h1, _⟩ := r.pendN _ k (by simp) hk
  refine ⟨?_, ?_, ?_⟩
  · show give _ _ k = _
    unfold give; rw [if_pos hk]
  · intro h; rw [(r.offN k h).1] at h1; cases h1
  · show k < g.mem.nextN
    apply Classical.byContradiction
    intro h
    rw [r.freshN k (by omega)] at h1; cases h1

theorem tick_goneL (r : Res g none LN LL) : ∀ k, g.mem.pendL (delIdx g.mem.count) = some k →
    g.tick.ll k = .off ∧ k ∉ LL ∧ k < g.tick.mem.nextL := by
  intro k hk
  obtain ⟨c, h1, _⟩ := r.pendL _ k (by simp) hk
  refine ⟨?_, ?_, ?_⟩
  · show give _ _ k = _
    unfold give; rw [if_pos hk]
  · intro h; rw [(r.offL k h).1] at h1; cases h1
  · show k < g.mem.nextL
    apply Classical.byContradiction
    intro h
    rw [r.freshL k (by omega)] at h1; cases h1

end tick

/-- The stores of `critnib_remove` before its search. -/
def preStores (m : Mem V) : List (Store V) :=
  let del := delIdx m.count
  let s1 : List (Store V) := [.incCount]
  let s2 := s1 ++ freeNode (m.stores s1) (m.pendN del)
  let s3 := s2 ++ freeLeaf (m.stores s2) (m.pendL del)
  s3 ++ [.pendN del none, .pendL del none]

theorem Res.unpend {g : G V} {d : Fin 16} {LN LL : List Nat} (r : Res g (some d) LN LL) :
    Res (g.after [.pendN d none, .pendL d none]) none LN LL where
  nodupN := r.nodupN
  chainN := chainN_congr (m := g.mem) (fun _ _ => rfl) r.chainN
  offN := r.offN
  nodupL := r.nodupL
  chainL := chainL_congr (m := g.mem) (fun _ _ => rfl) r.chainL
  offL := r.offL
  pendN := by
    intro i n _ h
    have h' : Function.update g.mem.pendN d none i = some n := h
    by_cases hi : i = d
    · subst hi; simp at h'
    · rw [Function.update_of_ne hi] at h'
      exact r.pendN i n (fun e => hi (Option.some.inj e).symm) h'
  pendL := by
    intro i n _ h
    have h' : Function.update g.mem.pendL d none i = some n := h
    by_cases hi : i = d
    · subst hi; simp at h'
    · rw [Function.update_of_ne hi] at h'
      exact r.pendL i n (fun e => hi (Option.some.inj e).symm) h'
  freshN := r.freshN
  freshL := r.freshL

theorem after_count (g : G V) (ss : List (Store V)) (h : ∀ a ∈ ss, a ≠ .incCount) :
    (g.mem.stores ss).count = g.mem.count := by
  generalize g.mem = m
  induction ss generalizing m with
  | nil => rfl
  | cons a ss ih =>
    rw [stores_cons, ih (fun b hb => h b (by simp [hb]))]
    have := h a (by simp)
    cases a with
    | slot s p => exact slot_count _ _ _
    | incCount => exact absurd rfl this
    | _ => rfl

theorem freeNode_noinc (m : Mem V) (o : Option Nat) : ∀ a ∈ freeNode m o, a ≠ .incCount := by
  cases o <;> simp [freeNode]

theorem freeLeaf_noinc (m : Mem V) (o : Option Nat) : ∀ a ∈ freeLeaf m o, a ≠ .incCount := by
  cases o <;> simp [freeLeaf]

/-- Stores that change only the lists of free items and slot `d` of the pending ones. -/
theorem prep_full {g g' : G V} {LN LL LN' LL' : List Nat} (fu : Full g LN LL [] []) {d : Fin 16}
    (hpn : ∀ i, i ≠ d → g'.mem.pendN i = g.mem.pendN i) (hpl : ∀ i, i ≠ d → g'.mem.pendL i = g.mem.pendL i)
    (hnn : g'.mem.nextN = g.mem.nextN) (hnl : g'.mem.nextL = g.mem.nextL)
    (lN : ∀ x, g.ln x = .live → g'.ln x = .live) (lL : ∀ x, g.ll x = .live → g'.ll x = .live)
    (sN : ∀ x ∈ LN, x ∈ LN') (sL : ∀ x ∈ LL, x ∈ LL') (dN : ∀ k, g.mem.pendN d = some k → k ∈ LN')
    (dL : ∀ k, g.mem.pendL d = some k → k ∈ LL') : Full g' LN' LL' [] [] where
  N := fun n hn => by
    rw [hnn] at hn
    rcases fu.N n hn with h | h | ⟨i, h⟩ | h
    · exact .inl (lN n h)
    · exact .inr (.inl (sN n h))
    · by_cases hi : i = d
      · exact .inr (.inl (dN n (hi ▸ h)))
      · exact .inr (.inr (.inl ⟨i, (hpn i hi).trans h⟩))
    · cases h
  L := fun n hn => by
    rw [hnl] at hn
    rcases fu.L n hn with h | h | ⟨i, h⟩ | h
    · exact .inl (lL n h)
    · exact .inr (.inl (sL n h))
    · by_cases hi : i = d
      · exact .inr (.inl (dL n (hi ▸ h)))
      · exact .inr (.inr (.inl ⟨i, (hpl i hi).trans h⟩))
    · cases h

theorem remove_prep {g : G V} (hi : Idle g) :
    ∃ g1, g1.mem = g.mem.stores (preStores g.mem) ∧ Idle g1 ∧ g1.mem.count = g.mem.count + 1 ∧
      g1.mem.pendN (delIdx g.mem.count) = none ∧ g1.mem.pendL (delIdx g.mem.count) = none ∧
      absMap g1.mem = absMap g.mem ∧ g1.mem.root = g.mem.root ∧
      ∀ op out d rest, AllS op out d g1 rest → AllS op out d g (preStores g.mem ++ rest) := by
  obtain ⟨hg, ht, LN, LL, r, fu⟩ := hi
  have q := tick_quiet r
  have hg1 := q.gi hg
  have ht1 : Two g.tick := by
    intro n hn
    rw [(q.liveN n (q.newN n hn)).2]
    exact ht n (q.newN n hn)
  obtain ⟨p2, LN', r2, sN, dN⟩ := freeNode_opt (tick_res r) (g.mem.pendN (delIdx g.mem.count)) (tick_goneN r)
  have hleaf : ∀ k, g.mem.pendL (delIdx g.mem.count) = some k →
      (g.tick.after (freeNode g.tick.mem (g.mem.pendN (delIdx g.mem.count)))).ll k = .off ∧ k ∉ LL ∧
      k < (g.tick.after (freeNode g.tick.mem (g.mem.pendN (delIdx g.mem.count)))).mem.nextL := by
    intro k hk
    obtain ⟨h1, h2, h3⟩ := tick_goneL r k hk
    refine ⟨h1, h2, ?_⟩
    cases g.mem.pendN (delIdx g.mem.count) <;> exact h3
  obtain ⟨p3, LL', r3, sL, dL⟩ := freeLeaf_opt r2 (g.mem.pendL (delIdx g.mem.count)) hleaf
  have r4 := r3.unpend
  rw [after_append, after_append] at r4
  generalize hA : freeNode g.tick.mem (g.mem.pendN (delIdx g.mem.count)) = A at *
  generalize hB : freeLeaf (g.tick.after A).mem (g.mem.pendL (delIdx g.mem.count)) = B at *
  have hss : preStores g.mem = .incCount :: (A ++ (B ++ [.pendN (delIdx g.mem.count) none,
      .pendL (delIdx g.mem.count) none])) := by
    rw [← hB, ← hA]
    unfold preStores
    dsimp only
    rw [stores_append]
    simp only [List.append_assoc, List.cons_append, List.nil_append]
    rfl
  have hp : ∀ a ∈ A ++ (B ++ [.pendN (delIdx g.mem.count) none, .pendL (delIdx g.mem.count) none]),
      Priv g.tick.ln g.tick.ll a := by
    intro a ha
    rcases List.mem_append.1 ha with h | h
    · exact p2 a h
    · rcases List.mem_append.1 h with h | h
      · exact p3 a h
      · simp only [List.mem_cons, List.not_mem_nil, or_false] at h
        rcases h with rfl | rfl <;> exact trivial
  have hgp := gi_priv _ hg1 hp
  refine ⟨g.tick.after (A ++ (B ++ [.pendN (delIdx g.mem.count) none, .pendL (delIdx g.mem.count) none])),
    ?_, ⟨hgp.1, two_priv _ hg1 hp ht1, LN', LL', r4, ?_⟩, ?_, ?_, ?_, ?_, ?_, ?_⟩
  · rw [hss]; rfl
  · have key : ∀ o : Option Nat, ∀ o' : Option Nat, ∀ m : Mem V, ∀ d : Fin 16,
        let m' := m.stores (freeNode m o ++ (freeLeaf (m.stores (freeNode m o)) o' ++ [.pendN d none, .pendL d none]))
        (∀ i, i ≠ d → m'.pendN i = m.pendN i) ∧ (∀ i, i ≠ d → m'.pendL i = m.pendL i) ∧ m'.nextN = m.nextN ∧ m'.nextL = m.nextL := by
      intro o o' m d
      cases o <;> cases o' <;> refine ⟨fun i hi => ?_, fun i hi => ?_, rfl, rfl⟩ <;> exact Function.update_of_ne hi _ _
    have hk := key (g.mem.pendN (delIdx g.mem.count)) (g.mem.pendL (delIdx g.mem.count)) g.tick.mem (delIdx g.mem.count)
    rw [hA, show g.tick.mem.stores A = (g.tick.after A).mem from rfl, hB] at hk
    exact prep_full fu hk.1 hk.2.1 hk.2.2.1 hk.2.2.2 (fun n hn => (q.liveN n hn).1) (fun n hn => (q.liveL n hn).1) sN sL dN dL
  · refine (after_count g.tick _ ?_).trans rfl
    intro a ha
    rcases List.mem_append.1 ha with h | h
    · rw [← hA] at h; exact freeNode_noinc _ _ a h
    · rcases List.mem_append.1 h with h | h
      · rw [← hB] at h; exact freeLeaf_noinc _ _ a h
      · simp only [List.mem_cons, List.not_mem_nil, or_false] at h
        rcases h with rfl | rfl <;> simp
  · show (Mem.stores _ _).pendN _ = _
    rw [stores_append, stores_append]
    simp [Mem.stores, Mem.store]
  · show (Mem.stores _ _).pendL _ = _
    rw [stores_append, stores_append]
    simp [Mem.stores, Mem.store]
  · exact hgp.2.1.trans (q.abs hg)
  · exact hgp.2.2.1.trans q.root
  · intro op out d rest h
    rw [hss]
    exact allS_quiet hg q rfl (allS_priv _ hg1 hp h)

/-! ## The removal itself -/

theorem cut_abs {g g' : G V} (hg : GI g) (hg' : GI g') {key : W}
    (hh : ∀ K x, Has g' K x ↔ key ≠ K ∧ Has g K x) :
    absMap g'.mem = fun q => if q = key then none else absMap g.mem q := by
  funext q
  by_cases hq : q = key
  · subst hq
    rw [if_pos rfl]
    exact (abs_none hg').2 fun x hx => ((hh q x).1 hx).1 rfl
  · rw [if_neg hq]
    cases hm : absMap g.mem q with
    | none => exact (abs_none hg').2 fun x hx => (abs_none hg).1 hm x ((hh q x).1 hx).2
    | some x => exact (abs_some hg').2 ((hh q x).2 ⟨fun e => hq e.symm, (abs_some hg).1 hm⟩)

theorem cut_res {g : G V} {LN LL : List Nat} (r : Res g none LN LL) {s : Slot} {l : Nat}
    (hl : g.ll l = .live) (hsl : ∀ n i, s = .child n i → g.ln n = .live) :
    Res (g.cut s l) none LN LL := by
  have ne : ∀ x lab, g.ll x = lab → lab ≠ .live → (g.cut s l).ll x = lab := by
    intro x lab hx hne
    rw [cut_ll, if_neg]
    · exact hx
    · intro e; rw [e, hl] at hx; exact hne hx.symm
  refine r.slot s _ _ _ hsl (fun x hx => (r.offN x hx).1) ?_ (fun _ _ h => h) ?_ r.freshN ?_
  · exact fun x hx => ne x _ (r.offL x hx).1 (by simp)
  · exact fun x c hx => ne x _ hx (by simp)
  · exact fun x hx => ne x _ (r.freshL x hx) (by simp)

theorem splice_res {g : G V} {LN LL : List Nat} (r : Res g none LN LL) {s : Slot} {n : Nat}
    {o : Fin 16} (hn : g.ln n = .live) (hsl : ∀ n i, s = .child n i → g.ln n = .live) :
    Res (g.splice s n o) none LN LL := by
  have ne : ∀ x lab, g.ln x = lab → lab ≠ .live → (g.splice s n o).ln x = lab := by
    intro x lab hx hne
    rw [splice_ln, if_neg]
    · exact hx
    · intro e; rw [e, hn] at hx; exact hne hx.symm
  refine r.slot s _ _ _ hsl ?_ (fun x hx => (r.offL x hx).1) ?_ (fun _ _ h => h) ?_ r.freshL
  · exact fun x hx => ne x _ (r.offN x hx).1 (by simp)
  · exact fun x c hx => ne x _ hx (by simp)
  · exact fun x hx => ne x _ (r.freshN x hx) (by simp)

theorem cut_full {g : G V} {LN LL : List Nat} (fu : Full g LN LL [] []) (s : Slot) (l : Nat) : Full (g.cut s l) LN LL [] [l] := by
  refine fu.keep ?_ ?_ ?_ ?_ (fun x hx => .inl hx) ?_ (fun x hx => hx.elim .inl (fun h => by cases h)) (fun x hx => hx.elim .inl (fun h => by cases h))
  · cases s <;> rfl
  · cases s <;> rfl
  · cases s <;> rfl
  · cases s <;> rfl
  · intro x hx
    by_cases e : x = l
    · exact .inr (by rw [e]; exact List.mem_cons_self)
    · exact .inl (by rw [cut_ll, if_neg e]; exact hx)

theorem splice_full {g : G V} {LN LL EL : List Nat} (fu : Full g LN LL [] EL) (s : Slot) (n : Nat) (o : Fin 16) :
    Full (g.splice s n o) LN LL [n] EL := by
  refine fu.keep ?_ ?_ ?_ ?_ ?_ (fun x hx => .inl hx) (fun x hx => hx.elim .inl (fun h => by cases h)) (fun x hx => hx.elim .inl fun h => .inr (.inl h))
  · cases s <;> rfl
  · cases s <;> rfl
  · cases s <;> rfl
  · cases s <;> rfl
  · intro x hx
    by_cases e : x = n
    · exact .inr (by rw [e]; exact List.mem_cons_self)
    · exact .inl (by rw [splice_ln, if_neg e]; exact hx)

theorem Full.pendLeaf {g : G V} {LN LL EN : List Nat} {l : Nat} (fu : Full g LN LL EN [l]) {d : Fin 16} (hd : g.mem.pendL d = none) :
    Full (g.after [.pendL d (some l)]) LN LL EN [] where
  N := fu.N
  L := fun x hx => by
    have up : ∀ i, (g.after [.pendL d (some l)]).mem.pendL i = if i = d then some l else g.mem.pendL i := fun i => Function.update_apply _ _ _ _
    rcases fu.L x hx with h | h | ⟨i, h⟩ | h
    · exact .inl h
    · exact .inr (.inl h)
    · refine .inr (.inr (.inl ⟨i, ?_⟩))
      rw [up, if_neg (fun e => by rw [e, hd] at h; cases h)]
      exact h
    · refine .inr (.inr (.inl ⟨d, ?_⟩))
      rw [up, if_pos rfl, List.mem_singleton.1 h]

theorem Full.pendNode {g : G V} {LN LL EL : List Nat} {n : Nat} (fu : Full g LN LL [n] EL) {d : Fin 16} (hd : g.mem.pendN d = none) :
    Full (g.after [.pendN d (some n)]) LN LL [] EL where
  L := fu.L
  N := fun x hx => by
    have up : ∀ i, (g.after [.pendN d (some n)]).mem.pendN i = if i = d then some n else g.mem.pendN i := fun i => Function.update_apply _ _ _ _
    rcases fu.N x hx with h | h | ⟨i, h⟩ | h
    · exact .inl h
    · exact .inr (.inl h)
    · refine .inr (.inr (.inl ⟨i, ?_⟩))
      rw [up, if_neg (fun e => by rw [e, hd] at h; cases h)]
      exact h
    · refine .inr (.inr (.inl ⟨d, ?_⟩))
      rw [up, if_pos rfl, List.mem_singleton.1 h]

theorem Res.pendLeaf {g : G V} {LN LL : List Nat} (r : Res g none LN LL) {d : Fin 16} {l : Nat}
    (hl : g.ll l = .dead g.mem.count) (h1 : 1 ≤ g.mem.count) (hd : delIdx (g.mem.count - 1) = d) :
    Res (g.after [.pendL d (some l)]) none LN LL where
  nodupN := r.nodupN
  chainN := chainN_congr (m := g.mem) (fun _ _ => rfl) r.chainN
  offN := r.offN
  nodupL := r.nodupL
  chainL := chainL_congr (m := g.mem) (fun _ _ => rfl) r.chainL
  offL := r.offL
  pendN := r.pendN
  pendL := by
    intro i n _ h
    have h' : Function.update g.mem.pendL d (some l) i = some n := h
    by_cases hi : i = d
    · subst hi
      rw [Function.update_self] at h'
      cases h'
      exact ⟨_, hl, h1, Nat.le_refl _, hd⟩
    · rw [Function.update_of_ne hi] at h'
      exact r.pendL i n (by simp) h'
  freshN := r.freshN
  freshL := r.freshL

theorem Res.pendNode {g : G V} {LN LL : List Nat} (r : Res g none LN LL) {d : Fin 16} {l : Nat}
    (hl : g.ln l = .dead g.mem.count) (h1 : 1 ≤ g.mem.count) (hd : delIdx (g.mem.count - 1) = d) :
    Res (g.after [.pendN d (some l)]) none LN LL where
  nodupN := r.nodupN
  chainN := chainN_congr (m := g.mem) (fun _ _ => rfl) r.chainN
  offN := r.offN
  nodupL := r.nodupL
  chainL := chainL_congr (m := g.mem) (fun _ _ => rfl) r.chainL
  offL := r.offL
  pendL := r.pendL
  pendN := by
    intro i n _ h
    have h' : Function.update g.mem.pendN d (some l) i = some n := h
    by_cases hi : i = d
    · subst hi
      rw [Function.update_self] at h'
      cases h'
      exact ⟨_, hl, h1, Nat.le_refl _, hd⟩
    · rw [Function.update_of_ne hi] at h'
      exact r.pendN i n (by simp) h'
  freshN := r.freshN
  freshL := r.freshL

theorem mem_kids {ch : Fin 16 → Ptr} {i : Fin 16} : i ∈ kids ch ↔ ch i ≠ .null := by
  simp [kids]

theorem kids_nodup (ch : Fin 16 → Ptr) : (kids ch).Nodup :=
  List.Pairwise.filter _ (List.nodup_finRange 16)

section
variable {op : Spec.Op V} {out : Spec.Out V}

/-- The last store. -/
theorem pend_final {g : G V} {LN LL : List Nat} (hg : GI g) (ht : Two g) (r : Res g none LN LL)
    {d : Fin 16} {l : Nat} (fu : Full g LN LL [] [l]) (hfree : g.mem.pendL d = none) (hl : g.ll l = .dead g.mem.count) (h1 : 1 ≤ g.mem.count)
    (hd : delIdx (g.mem.count - 1) = d) : AllS op out true g [.pendL d (some l)] := by
  have hp : ∀ a ∈ ([.pendL d (some l)] : List (Store V)), Priv g.ln g.ll a := by
    simp [Priv]
  rw [← List.append_nil [Store.pendL d (some l)]]
  exact allS_priv _ hg hp ⟨rfl, (gi_priv _ hg hp).1, two_priv _ hg hp ht, LN, LL, r.pendLeaf hl h1 hd, fu.pendLeaf hfree⟩

theorem splice_two {g : G V} {s : Slot} {n : Nat} {o : Fin 16} (hne : (g.mem.nodes n).child o ≠ .null)
    (ht : ∀ x, x ≠ n → g.ln x = .live →
      ∃ i j, i ≠ j ∧ (g.mem.nodes x).child i ≠ .null ∧ (g.mem.nodes x).child j ≠ .null) :
    Two (g.splice s n o) := by
  intro x hx
  obtain ⟨h1, h2⟩ := splice_live hx
  exact two_slot hne _ _ (ht x h1 h2)

end

theorem delIdx_pred {g g1 : G V} (h : g1.mem.count = g.mem.count + 1) :
    delIdx (g1.mem.count - 1) = delIdx g.mem.count := by rw [h]; rfl

/-- `critnib_remove` carries out a removal. -/
theorem remove_sim {g : G V} (hi : Idle g) (key : W) :
    ∃ ss r, removeStores g.mem key = some (ss, r) ∧ Sim (.remove key) (.value r) g ss := by
  by_cases hr : g.mem.root = .null
  · have hn : absMap g.mem key = none := by
      refine abs_miss (p := .null) hi.1 ?_ (fun h => h)
      rw [← hr]; exact on_root _ _
    refine ⟨[], none, by unfold removeStores; rw [hr], .inr ⟨hn.symm, ?_, rfl, hi⟩⟩
    funext q
    show (if q = key then none else _) = _
    split
    · rename_i h; rw [h, hn]
    · rfl
  obtain ⟨g1, hm1, ⟨hg1, ht1, LN, LL, r1, fu1⟩, hc, hpn, hpl, habs, hroot, hpre⟩ := remove_prep hi
  have hdel := delIdx_pred hc
  have h1c : 1 ≤ g1.mem.count := by omega
  -- not found
  have miss : absMap g.mem key = none →
      Sim (.remove key) (.value none) g (preStores g.mem) := by
    intro hn
    refine .inr ⟨hn.symm, ?_, ?_⟩
    · funext q
      show (if q = key then none else _) = _
      split
      · rename_i h; rw [h, hn]
      · rfl
    · have := hpre (.remove key) (.value none) true [] ⟨rfl, hg1, ht1, LN, LL, r1, fu1⟩
      rwa [List.append_nil] at this
  -- found: unlinking the leaf is the step at which the removal takes effect
  have found : ∀ s l v rest, g1.mem.load s = .leaf l → (g1.mem.leaves l).key = key →
      (g1.mem.leaves l).val = .user v → g1.ll l = .live →
      (∀ n i, s = .child n i → g1.ln n = .live) →
      AllS (.remove key) (.value (some v)) true (g1.cut s l) rest →
      Sim (.remove key) (.value (some v)) g (preStores g.mem ++ (.slot s .null :: rest)) := by
    intro s l v rest h1 h2 h3 h4 h5 h6
    have hg' : GI (g1.cut s l) := by
      refine cut_gi hg1 h1 h5 ?_
      intro n i hs
      obtain ⟨a, b, hab, ha, hb⟩ := ht1 n (h5 n i hs)
      by_cases hai : a = i
      · exact ⟨b, fun e => hab (hai.trans e.symm), hb⟩
      · exact ⟨a, hai, ha⟩
    refine .inl (hpre _ _ _ _ (allS_commit (g' := g1.cut s l) rfl (cut_tr h1 h4 h5) hg' ?_ ?_ h6))
    · exact ((abs_some hg1).2 ⟨l, h4, h2, h3⟩).symm
    · exact cut_abs hg1 hg' (h2 ▸ cut_has hg1 h4)
  unfold removeStores
  cases hrt : g.mem.root with
  | null => exact absurd hrt hr
  | leaf l =>
    dsimp only
    rw [show [Store.incCount] ++ freeNode (g.mem.stores [Store.incCount]) (g.mem.pendN (delIdx g.mem.count)) ++
      freeLeaf (g.mem.stores ([Store.incCount] ++ freeNode (g.mem.stores [Store.incCount]) (g.mem.pendN (delIdx g.mem.count))))
        (g.mem.pendL (delIdx g.mem.count)) ++ [.pendN (delIdx g.mem.count) none, .pendL (delIdx g.mem.count) none] =
      preStores g.mem from rfl, ← hm1]
    have hlive : g1.ll l = .live := by
      have := hg1.root; rw [hroot, hrt] at this; exact this
    have hon : On g1.mem key (.leaf l) := by
      have := on_root g1.mem key; rw [hroot, hrt] at this; exact this
    obtain ⟨v, hv⟩ := (hg1.onL l hlive).2
    by_cases hk : (g1.mem.leaves l).key = key
    · rw [if_pos hk]
      unfold removeEnd
      rw [hv]
      refine ⟨_, _, rfl, ?_⟩
      rw [List.append_assoc]
      have hsl : ∀ n i, Slot.root = .child n i → g1.ln n = .live := fun _ _ e => by cases e
      refine found .root l v _ (hroot.trans hrt) hk hv hlive hsl ?_
      refine pend_final (cut_gi (s := .root) (l := l) hg1 (hroot.trans hrt) hsl (fun _ _ e => by cases e)) ?_
        (cut_res r1 hlive hsl) (cut_full fu1 _ _) hpl ?_ ?_ ?_
      · exact ht1
      · rw [cut_ll, if_pos rfl]; rfl
      · exact h1c
      · exact hdel
    · rw [if_neg hk]
      refine ⟨_, _, rfl, miss ?_⟩
      rw [← habs]
      exact abs_miss hg1 hon hk
  | node n0 =>
    dsimp only
    rw [show [Store.incCount] ++ freeNode (g.mem.stores [Store.incCount]) (g.mem.pendN (delIdx g.mem.count)) ++
      freeLeaf (g.mem.stores ([Store.incCount] ++ freeNode (g.mem.stores [Store.incCount]) (g.mem.pendN (delIdx g.mem.count))))
        (g.mem.pendL (delIdx g.mem.count)) ++ [.pendN (delIdx g.mem.count) none, .pendL (delIdx g.mem.count) none] =
      preStores g.mem from rfl, ← hm1]
    have hon : On g1.mem key (.node n0) := by
      have := on_root g1.mem key; rw [hroot, hrt] at this; exact this
    have hl0 : g1.ln n0 = .live := on_live hg1 hon
    rcases descendR_spec hg1 key depth .root n0 (hroot.trans hrt) (fun _ _ e => by cases e) hon
      (by have := (hg1.shp n0 hl0).1; unfold depth; omega) with ⟨hd, hnull⟩ |
      ⟨np, n, i, l, hd, hnp, hnpl, hnl, hch, honl⟩
    · rw [hd]
      refine ⟨_, _, rfl, miss ?_⟩
      rw [← habs]
      exact abs_miss (p := .null) hg1 hnull (fun h => h)
    · rw [hd]
      dsimp only
      have hlive : g1.ll l = .live := on_live hg1 honl
      obtain ⟨v, hv⟩ := (hg1.onL l hlive).2
      by_cases hk : (g1.mem.leaves l).key = key
      · rw [if_pos hk]
        have hsl : ∀ a j, Slot.child n i = .child a j → g1.ln a = .live :=
          fun _ _ e => by cases e; exact hnl
        have hm2 : g.mem.stores (preStores g.mem ++ [.slot (.child n i) .null]) =
            (g1.cut (.child n i) l).mem := by
          rw [stores_append, ← hm1]; rfl
        rw [hm2]
        have hother : ∃ j, j ≠ i ∧ (g1.mem.nodes n).child j ≠ .null := by
          obtain ⟨a, b, hab, ha, hb⟩ := ht1 n hnl
          by_cases hai : a = i
          · exact ⟨b, fun e => hab (hai.trans e.symm), hb⟩
          · exact ⟨a, hai, ha⟩
        have hg2 : GI (g1.cut (.child n i) l) :=
          cut_gi hg1 hch hsl (fun a j e => by cases e; exact hother)
        have hchild : ∀ x j, ((g1.cut (.child n i) l).mem.nodes x).child j =
            if Slot.child n i = .child x j then .null else (g1.mem.nodes x).child j :=
          fun x j => slot_child g1.mem (.child n i) .null x j
        have hcount : (g1.cut (.child n i) l).mem.count = g1.mem.count := slot_count _ _ _
        have hlv : (g1.cut (.child n i) l).mem.leaves = g1.mem.leaves := slot_leaves _ _ _
        have hdead : (g1.cut (.child n i) l).ll l = .dead (g1.cut (.child n i) l).mem.count := by
          rw [cut_ll, if_pos rfl, hcount]
        have htwo : ∀ x, x ≠ n → (g1.cut (.child n i) l).ln x = .live → ∃ a b, a ≠ b ∧
            ((g1.cut (.child n i) l).mem.nodes x).child a ≠ .null ∧
            ((g1.cut (.child n i) l).mem.nodes x).child b ≠ .null := by
          intro x hx hxl
          obtain ⟨a, b, hab, ha, hb⟩ := ht1 x hxl
          have hne : ∀ j, Slot.child n i ≠ .child x j := fun j e => hx (by cases e; rfl)
          exact ⟨a, b, hab, by rw [hchild, if_neg (hne a)]; exact ha,
            by rw [hchild, if_neg (hne b)]; exact hb⟩
        have hmem := @mem_kids ((g1.cut (.child n i) l).mem.nodes n).child
        have hnd := kids_nodup ((g1.cut (.child n i) l).mem.nodes n).child
        have r2 := cut_res (s := .child n i) r1 hlive hsl
        have fu2 := cut_full fu1 (.child n i) l
        have hpn2 : (g1.cut (.child n i) l).mem.pendN (delIdx g.mem.count) = none := hpn
        have hpl2 : (g1.cut (.child n i) l).mem.pendL (delIdx g.mem.count) = none := hpl
        have hv2 : ((g1.cut (.child n i) l).mem.leaves l).val = .user v := by rw [hlv]; exact hv
        have hsr : delIdx ((g1.cut (.child n i) l).mem.count - 1) = delIdx g.mem.count := by
          rw [hcount]; exact hdel
        have h1c2 : 1 ≤ (g1.cut (.child n i) l).mem.count := by rw [hcount]; exact h1c
        have hnl2 : (g1.cut (.child n i) l).ln n = .live := hnl
        have hnp2 : (g1.cut (.child n i) l).mem.load np = .node n := by
          have hself : np ≠ .child n i := slot_ne_self hg1 hnl hnp i
          cases np with
          | root => exact hnp
          | child a j =>
            show ((g1.cut (.child n i) l).mem.nodes a).child j = _
            rw [hchild, if_neg (fun e => hself e.symm)]; exact hnp
        have hnpl2 : ∀ a j, np = .child a j → (g1.cut (.child n i) l).ln a = .live := hnpl
        have hfound := fun rest => found (.child n i) l v rest hch hk hv hlive hsl
        have hnonempty : kids ((g1.cut (.child n i) l).mem.nodes n).child ≠ [] := by
          intro e
          obtain ⟨j, hj, hj2⟩ := hother
          have : j ∈ kids ((g1.cut (.child n i) l).mem.nodes n).child := by
            rw [hmem, hchild, if_neg]
            · exact hj2
            · intro e; cases e; exact hj rfl
          rw [e] at this; cases this
        generalize g1.cut (.child n i) l = g2 at *
        cases hks : kids (g2.mem.nodes n).child with
        | nil => exact absurd hks hnonempty
        | cons o t =>
          rw [hks] at hmem hnd
          cases t with
          | nil =>
            dsimp only
            unfold removeEnd
            rw [hv2]
            refine ⟨_, _, rfl, ?_⟩
            simp only [List.append_assoc, List.cons_append, List.nil_append]
            apply hfound
            have hone : ∀ j, j ≠ o → (g2.mem.nodes n).child j = .null := by
              intro j hj
              apply Classical.byContradiction
              intro h
              have := (hmem (i := j)).2 h
              simp at this; exact hj this
            have hne : (g2.mem.nodes n).child o ≠ .null := (hmem (i := o)).1 (by simp)
            have hg3 := splice_gi hg2 hnp2 hnl2 hnpl2 hone hne
            have ht3 : Two (g2.splice np n o) := by
              exact splice_two hne htwo
            have hab3 := abs_ext hg2 hg3 splice_has
            have r3 := splice_res (s := np) (o := o) r2 hnl2 hnpl2
            have hc3 : (g2.splice np n o).mem.count = g2.mem.count := slot_count _ _ _
            refine ⟨g2.splice np n o, true, rfl, splice_tr hg2 hnp2 hnl2 hnpl2 hone, hg3,
              .inl ⟨hab3, rfl⟩, ?_⟩
            have hp : ∀ a ∈ ([.pendN (delIdx g.mem.count) (some n)] : List (Store V)),
                Priv (g2.splice np n o).ln (g2.splice np n o).ll a := by simp [Priv]
            refine allS_priv [_] hg3 hp ?_
            refine pend_final (gi_priv _ hg3 hp).1 (two_priv _ hg3 hp ht3)
              (r3.pendNode ?_ ?_ ?_) ((splice_full fu2 np n o).pendNode ?_) ?_ ?_ ?_ ?_
            · rw [splice_ln, if_pos rfl, hc3]
            · rw [hc3]; exact h1c2
            · rw [hc3]; exact hsr
            · cases np <;> exact hpn2
            · cases np <;> exact hpl2
            · show g2.ll l = .dead (g2.splice np n o).mem.count
              rw [hc3]; exact hdead
            · show 1 ≤ (g2.splice np n o).mem.count
              rw [hc3]; exact h1c2
            · show delIdx ((g2.splice np n o).mem.count - 1) = _
              rw [hc3]; exact hsr
          | cons o' t' =>
            dsimp only
            unfold removeEnd
            rw [hv2]
            refine ⟨_, _, rfl, ?_⟩
            simp only [List.append_assoc, List.cons_append, List.nil_append]
            apply hfound
            refine pend_final hg2 ?_ r2 fu2 hpl2 hdead h1c2 hsr
            intro x hx
            by_cases hxn : x = n
            · subst hxn
              refine ⟨o, o', ?_, (hmem (i := o)).1 (by simp), (hmem (i := o')).1 (by simp)⟩
              intro e
              rw [e] at hnd
              simp at hnd
            · exact htwo x hxn hx
      · rw [if_neg hk]
        refine ⟨_, _, rfl, miss ?_⟩
        rw [← habs]
        exact abs_miss hg1 honl hk

end Verif.Critnib.Conc
