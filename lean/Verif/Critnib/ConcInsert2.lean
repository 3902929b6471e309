import Verif.Critnib.ConcInsert
/-! # `critnib_insert` carries out an insertion -/
namespace Verif.Critnib.Conc
open Verif.Critnib

variable {V : Type}

theorem after_append (g : G V) (a b : List (Store V)) : (g.after a).after b = g.after (a ++ b) := by
  simp [G.after, stores_append]

/-- The map after a new entry was added. -/
theorem abs_insert {g g' : G V} (hg : GI g) (hg' : GI g') {key : W} {v : V}
    (hh : ∀ K x, Has g' K x ↔ (key = K ∧ x = v) ∨ Has g K x) (hn : absMap g.mem key = none) :
    absMap g'.mem = fun q => if q = key then some v else absMap g.mem q := by
  funext q
  by_cases hq : q = key
  · subst hq
    rw [if_pos rfl]
    exact (abs_some hg').2 ((hh q v).2 (.inl ⟨rfl, rfl⟩))
  · rw [if_neg hq]
    cases hm : absMap g.mem q with
    | none =>
      refine (abs_none hg').2 fun x hx => ?_
      rcases (hh q x).1 hx with ⟨h, _⟩ | h
      · exact hq h.symm
      · exact (abs_none hg).1 hm x h
    | some x => exact (abs_some hg').2 ((hh q x).2 (.inr ((abs_some hg).1 hm)))

/-- A slot store keeps the lists of free items. -/
theorem Res.slot {g : G V} {X : Option (Fin 16)} {LN LL : List Nat} (r : Res g X LN LL) (s : Slot)
    (p : Ptr) (ln ll : Nat → Lab) (hs : ∀ n i, s = .child n i → g.ln n = .live)
    (hN : ∀ x ∈ LN, ln x = .off) (hL : ∀ x ∈ LL, ll x = .off)
    (dN : ∀ x c, g.ln x = .dead c → ln x = .dead c) (dL : ∀ x c, g.ll x = .dead c → ll x = .dead c)
    (fN : ∀ x, g.mem.nextN ≤ x → ln x = .off) (fL : ∀ x, g.mem.nextL ≤ x → ll x = .off) :
    Res ⟨g.mem.store (.slot s p), ln, ll⟩ X LN LL := by
  refine r.keep ?_ ?_ ?_ ?_ ?_ ?_ (slot_count _ _ _) ?_ ?_ dN dL fN fL
  · cases s <;> rfl
  · cases s <;> rfl
  · cases s <;> rfl
  · cases s <;> rfl
  · cases s <;> rfl
  · cases s <;> rfl
  · intro x hx
    refine ⟨hN x hx, congrArg (fun y => Node.child y 0) (slot_other _ _ _ ?_)⟩
    intro i hi
    have := hs x i hi
    rw [(r.offN x hx).1] at this; cases this
  · intro x hx
    exact ⟨hL x hx, by dsimp only; rw [slot_leaves]⟩

theorem two_slot {g : G V} {s : Slot} {p : Ptr} (hp : p ≠ .null) (ln ll : Nat → Lab) {n : Nat}
    (h : ∃ i j, i ≠ j ∧ (g.mem.nodes n).child i ≠ .null ∧ (g.mem.nodes n).child j ≠ .null) :
    ∃ i j, i ≠ j ∧ ((⟨g.mem.store (.slot s p), ln, ll⟩ : G V).mem.nodes n).child i ≠ .null ∧
      ((⟨g.mem.store (.slot s p), ln, ll⟩ : G V).mem.nodes n).child j ≠ .null := by
  obtain ⟨i, j, hij, h1, h2⟩ := h
  refine ⟨i, j, hij, ?_, ?_⟩
  · dsimp only; rw [slot_child]; split
    · exact hp
    · exact h1
  · dsimp only; rw [slot_child]; split
    · exact hp
    · exact h2

section
variable {h : G V} {LN LL : List Nat} {k : Nat} {key : W} {v : V} {s : Slot}
  {upd lo no : Bool}

theorem link_final (hg : GI h) (ht : Two h) (r : Res h none LN LL) (fu : Full h LN LL [] [k]) (hk : h.ll k = .off)
    (hin : k ∉ LL) (hlt : k < h.mem.nextL) (hkey : (h.mem.leaves k).key = key)
    (hval : (h.mem.leaves k).val = .user v) (thr : Through h key s) (hnull : h.mem.load s = .null) :
    AllS (.insert key v upd lo no) (.inserted .ok) false h [.slot s (.leaf k)] := by
  subst hkey
  have hg' := link_gi hg thr hnull hval
  have hn : absMap h.mem (h.mem.leaves k).key = none :=
    abs_miss (p := .null) hg (by have := thr.on hg; rw [hnull] at this; exact this) (fun h => h)
  refine allS_commit (g' := h.link s k) rfl (link_tr hk hnull thr.live) hg' (.inr hn) ?_ ⟨rfl, hg', ?_, LN, LL, ?_, ?_⟩
  · exact abs_insert hg hg' (link_has hk hval) hn
  · intro n hn
    exact two_slot (by simp) _ _ (ht n hn)
  · have upd : ∀ x, x ≠ k → Function.update h.ll k .live x = h.ll x :=
      fun x hx => Function.update_of_ne hx _ _
    refine r.slot s _ _ _ thr.live (fun x hx => (r.offN x hx).1) ?_ (fun _ _ e => e) ?_ r.freshN ?_
    · intro x hx
      rw [upd x (fun e => hin (e ▸ hx))]; exact (r.offL x hx).1
    · intro x c hx
      rw [upd x (fun e => by rw [e, hk] at hx; cases hx)]; exact hx
    · intro x hx
      rw [upd x (fun e => by omega)]; exact r.freshL x hx
  · refine fu.keep ?_ ?_ ?_ ?_ (fun x hx => .inl hx) ?_ (fun x hx => hx.elim .inl fun h => .inr (.inl h)) ?_
    · cases s <;> rfl
    · cases s <;> rfl
    · cases s <;> rfl
    · cases s <;> rfl
    · intro x hx
      by_cases e : x = k
      · rw [e]; exact .inl (Function.update_self _ _ _)
      · exact .inl ((Function.update_of_ne e _ _).trans hx)
    · rintro x (hx | hx)
      · exact .inl hx
      · rw [List.mem_singleton.1 hx]; exact .inr (.inr (Function.update_self _ _ _))

theorem branch_final {nn : Nat} (hg : GI h) (ht : Two h) (r : Res h none LN LL) (fu : Full h LN LL [nn] [k]) (hin : k ∉ LL)
    (hlt : k < h.mem.nextL) (hinN : nn ∉ LN) (hltN : nn < h.mem.nextN)
    (hkey : (h.mem.leaves k).key = key) (hval : (h.mem.leaves k).val = .user v)
    (b : BranchOk h s nn k) (hmiss : ¬ Fits h.mem key (h.mem.load s))
    (hidx : idx (keyOf h.mem (h.mem.load s)) (h.mem.nodes nn).shift ≠ idx key (h.mem.nodes nn).shift) :
    AllS (.insert key v upd lo no) (.inserted .ok) false h [.slot s (.node nn)] := by
  subst hkey
  have hg' := branch_gi hg b
  have hn : absMap h.mem (h.mem.leaves k).key = none := abs_miss hg (b.thr.on hg) hmiss
  have updL : ∀ x, x ≠ k → Function.update h.ll k .live x = h.ll x :=
    fun x hx => Function.update_of_ne hx _ _
  have updN : ∀ x, x ≠ nn → Function.update h.ln nn .live x = h.ln x :=
    fun x hx => Function.update_of_ne hx _ _
  refine allS_commit (g' := h.branch s nn k) rfl (branch_tr hg b) hg' (.inr hn) ?_ ⟨rfl, hg', ?_, LN, LL, ?_, ?_⟩
  · exact abs_insert hg hg' (branch_has hval) hn
  · intro n hn
    by_cases hnn : n = nn
    · subst hnn
      refine two_slot (by simp) _ _ ⟨_, _, hidx, ?_, ?_⟩
      · rw [b.old]; exact b.qne
      · rw [b.new]; simp
    · have : Function.update h.ln nn .live n = .live := hn
      rw [updN n hnn] at this
      exact two_slot (by simp) _ _ (ht n this)
  · refine r.slot s _ _ _ b.thr.live ?_ ?_ ?_ ?_ ?_ ?_
    · intro x hx
      rw [updN x (fun e => hinN (e ▸ hx))]; exact (r.offN x hx).1
    · intro x hx
      rw [updL x (fun e => hin (e ▸ hx))]; exact (r.offL x hx).1
    · intro x c hx
      rw [updN x (fun e => by rw [e, b.offN] at hx; cases hx)]; exact hx
    · intro x c hx
      rw [updL x (fun e => by rw [e, b.offL] at hx; cases hx)]; exact hx
    · intro x hx
      rw [updN x (fun e => by omega)]; exact r.freshN x hx
    · intro x hx
      rw [updL x (fun e => by omega)]; exact r.freshL x hx
  · refine fu.keep ?_ ?_ ?_ ?_ ?_ ?_ ?_ ?_
    · cases s <;> rfl
    · cases s <;> rfl
    · cases s <;> rfl
    · cases s <;> rfl
    · intro x hx
      by_cases e : x = nn
      · rw [e]; exact .inl (Function.update_self _ _ _)
      · exact .inl ((Function.update_of_ne e _ _).trans hx)
    · intro x hx
      by_cases e : x = k
      · rw [e]; exact .inl (Function.update_self _ _ _)
      · exact .inl ((Function.update_of_ne e _ _).trans hx)
    · rintro x (hx | hx)
      · exact .inl hx
      · rw [List.mem_singleton.1 hx]; exact .inr (.inr (Function.update_self _ _ _))
    · rintro x (hx | hx)
      · exact .inl hx
      · rw [List.mem_singleton.1 hx]; exact .inr (.inr (Function.update_self _ _ _))

/-- The case of a slot that is not empty. -/
theorem insertFull_sim {ss : List (Store V)} {g : G V} {q : Ptr} (hh : h = g.after ss) (hgg : GI g)
    (hp : ∀ a ∈ ss, Priv g.ln g.ll a) (hg : GI h) (ht : Two h) (r : Res h none LN LL)
    (fu : Full h LN LL [] [k])
    (hk : h.ll k = .off) (hin : k ∉ LL) (hlt : k < h.mem.nextL)
    (hkey : (h.mem.leaves k).key = key) (hval : (h.mem.leaves k).val = .user v)
    (thr : Through h key s) (hq : h.mem.load s = q) (hne : q ≠ .null)
    (hnf : ∀ n, q = .node n → ¬ Fits h.mem key q) :
    ∃ ss' r', insertFull h.mem ss k key v upd no s q = some (ss', r') ∧
      Sim (.insert key v upd lo no) (.inserted r') g ss' := by
  have habs : absMap h.mem = absMap g.mem := by rw [hh]; exact (gi_priv ss hgg hp).2.1
  have hlab : h.ln = g.ln ∧ h.ll = g.ll := by rw [hh]; exact ⟨rfl, rfl⟩
  have hpath : pathOf h.mem q = keyOf h.mem q := by cases q <;> rfl
  have hql : PLive h q := by rw [← hq]; exact on_live hg (thr.on hg)
  obtain ⟨fp, fr⟩ := freeLeaf_spec r hk hin hlt
  have fg := gi_priv (freeLeaf h.mem (some k)) hg fp
  have fidle : Idle (h.after (freeLeaf h.mem (some k))) :=
    ⟨fg.1, two_priv _ hg fp ht, LN, k :: LL, fr, freeLeaf_full fu⟩
  have fp' : ∀ a ∈ freeLeaf h.mem (some k), Priv g.ln g.ll a := by
    rw [← hlab.1, ← hlab.2]; exact fp
  have hpp : ∀ a ∈ ss ++ freeLeaf h.mem (some k), Priv g.ln g.ll a := by
    intro a ha
    rcases List.mem_append.1 ha with h1 | h1
    · exact hp a h1
    · exact fp' a h1
  have hfa : g.after (ss ++ freeLeaf h.mem (some k)) = h.after (freeLeaf h.mem (some k)) := by
    rw [← after_append, ← hh]
  unfold insertFull
  by_cases hx : pathOf h.mem q ^^^ key = 0#64
  · rw [if_pos hx]
    have hke : keyOf h.mem q = key := by
      rw [hpath] at hx
      exact BitVec.xor_eq_zero_iff.1 hx
    cases q with
    | null => exact absurd rfl hne
    | node n =>
      refine absurd ?_ (hnf n rfl)
      rw [← hke]
      exact keyOf_fits _ hne
    | leaf l =>
      have hke' : (h.mem.leaves l).key = key := hke
      obtain ⟨x, hx1, hx2⟩ := abs_leaf hg hql
      rw [hke'] at hx2
      have hkl : l ≠ k := fun e => by
        have : h.ll l = .live := hql
        rw [e, hk] at this; cases this
      cases upd with
      | false =>
        refine ⟨_, _, rfl, .inr ⟨⟨rfl, ?_⟩, rfl, ?_⟩⟩
        · rw [← habs, hx2]; simp
        · rw [← List.append_nil (ss ++ freeLeaf h.mem (some k))]
          refine allS_priv _ hgg hpp ?_
          rw [hfa]
          exact ⟨rfl, fidle⟩
      | true =>
        refine ⟨_, _, rfl, .inl ?_⟩
        refine allS_priv _ hgg hpp ?_
        rw [hfa]
        have hl2 : (h.after (freeLeaf h.mem (some k))).ll l = .live := hql
        have hkl2 : ((h.after (freeLeaf h.mem (some k))).mem.leaves l).key = key := by
          rw [fg.2.2.2.2 l hql]; exact hke'
        refine allS_commit (g' := (h.after (freeLeaf h.mem (some k))).setv l v) rfl (setv_tr hl2)
          (setv_gi fg.1) (.inl rfl) ?_ ⟨rfl, setv_gi fg.1, ?_, LN, k :: LL, ?_, (freeLeaf_full fu).same rfl rfl rfl rfl rfl rfl⟩
        · funext y
          show _ = if y = key then some v else _
          by_cases hy : y = key
          · subst hy
            rw [if_pos rfl]
            refine (abs_some (setv_gi fg.1)).2 ((setv_has fg.1 hl2 _ _).2 ?_)
            rw [if_pos hkl2]
          · rw [if_neg hy]
            have hne2 : ((h.after (freeLeaf h.mem (some k))).mem.leaves l).key ≠ y :=
              fun e => hy (e.symm.trans hkl2)
            cases hm : absMap (h.after (freeLeaf h.mem (some k))).mem y with
            | none =>
              refine (abs_none (setv_gi fg.1)).2 fun z hz => ?_
              have := (setv_has fg.1 hl2 _ _).1 hz
              rw [if_neg hne2] at this
              exact (abs_none fg.1).1 hm z this
            | some z =>
              refine (abs_some (setv_gi fg.1)).2 ((setv_has fg.1 hl2 _ _).2 ?_)
              rw [if_neg hne2]
              exact (abs_some fg.1).1 hm
        · exact fidle.2.1
        · refine fr.keep rfl rfl rfl rfl rfl rfl rfl (fun x hx => ⟨(fr.offN x hx).1, rfl⟩) ?_
            (fun _ _ h => h) (fun _ _ h => h) fr.freshN fr.freshL
          intro y hy
          have hyl : y ≠ l := fun e => by
            have := (fr.offL y hy).1
            rw [e, hl2] at this; cases this
          exact ⟨(fr.offL y hy).1, by rw [setv_val, if_neg hyl]⟩
  · rw [if_neg hx]
    have hke : keyOf h.mem q ≠ key := by
      intro e
      rw [hpath, e] at hx
      exact hx BitVec.xor_self
    have hmiss : ¬ Fits h.mem key q := by
      cases q with
      | null => exact absurd rfl hne
      | leaf l => exact hke
      | node n => exact hnf n rfl
    rcases allocNode_spec r fu no with ⟨rfl, ha⟩ | ⟨nn, as, LN', ha, hpa, hoff, hinN, r2, hltN, e1, e2, e3, e4, fu2⟩
    · rw [ha]
      refine ⟨_, _, rfl, .inr ⟨.inr rfl, rfl, ?_⟩⟩
      rw [← List.append_nil (ss ++ freeLeaf h.mem (some k))]
      refine allS_priv _ hgg hpp ?_
      rw [hfa]
      exact ⟨rfl, fidle⟩
    · rw [ha]
      refine ⟨_, _, rfl, .inl ?_⟩
      rw [hpath]
      generalize hsh : msb64 (keyOf h.mem q ^^^ key) / 4 * 4 = sh
      obtain ⟨b1, b2, b3, b4, b5, b6⟩ := branch_shift (keyOf h.mem q) key hke
      rw [hsh] at b1 b2 b3 b4 b5 b6
      have hpf : ∀ a ∈ (fillNode nn key (keyOf h.mem q) sh (.leaf k) q : List (Store V)),
          Priv h.ln h.ll a := fillNode_priv nn hoff _ _ _ _ _
      have hpall : ∀ a ∈ as ++ fillNode nn key (keyOf h.mem q) sh (.leaf k) q, Priv h.ln h.ll a := by
        intro a ha'
        rcases List.mem_append.1 ha' with h1 | h1
        · exact hpa a h1
        · exact hpf a h1
      have g3 := gi_priv _ hg hpall
      have t3 := two_priv _ hg hpall ht
      have r3 : Res (h.after (as ++ fillNode nn key (keyOf h.mem q) sh (.leaf k) q)) none LN' LL := by
        rw [← after_append]
        exact fillNode_res r2 hinN _ _ _ _ _
      have fu3 : Full (h.after (as ++ fillNode nn key (keyOf h.mem q) sh (.leaf k) q)) LN' LL [nn] [k] := by
        rw [← after_append]
        have e : ((h.after as).after (fillNode nn key (keyOf h.mem q) sh (.leaf k) q)).mem = _ :=
          (fillNode_spec (h.after as).mem nn key (keyOf h.mem q) sh (.leaf k) q).2.2.2.2
        exact fu2.same (by rw [e]) (by rw [e]) (by rw [e]) (by rw [e]) rfl rfl
      obtain ⟨f1, f2, f3, f4, f5⟩ :=
        fillNode_spec (h.after as).mem nn key (keyOf h.mem q) sh (.leaf k) q
      have hm3 : (h.after (as ++ fillNode nn key (keyOf h.mem q) sh (.leaf k) q)).mem =
          (h.after as).mem.stores (fillNode nn key (keyOf h.mem q) sh (.leaf k) q) :=
        stores_append _ _ _
      have hpre : ∀ a ∈ ss ++ as ++ fillNode nn key (keyOf h.mem q) sh (.leaf k) q,
          Priv g.ln g.ll a := by
        rw [← hlab.1, ← hlab.2] at hp ⊢
        intro a ha'
        rw [List.append_assoc] at ha'
        rcases List.mem_append.1 ha' with h1 | h1
        · exact hp a h1
        · exact hpall a h1
      refine allS_priv _ hgg hpre ?_
      rw [List.append_assoc, ← after_append, ← hh]
      generalize hh3 : h.after (as ++ fillNode nn key (keyOf h.mem q) sh (.leaf k) q) = h3
        at g3 t3 r3 fu3 hm3
      have hl3 : h3.ln = h.ln ∧ h3.ll = h.ll := by rw [← hh3]; exact ⟨rfl, rfl⟩
      have hlv : h3.mem.leaves = h.mem.leaves := by rw [hm3, f5]; exact e1
      have hnx : h3.mem.nextL = h.mem.nextL := by rw [hm3, f5]; exact e2
      have hnxN : h3.mem.nextN = (h.after as).mem.nextN := by rw [hm3, f5]
      have hnd : ∀ x, x ≠ nn → h3.mem.nodes x = h.mem.nodes x := by
        intro x hxn
        rw [hm3, f4 x hxn, e4]
      have hlive : ∀ x, h.ln x = .live → x ≠ nn := fun x hx e => by
        rw [e, hoff] at hx; cases hx
      have hload : h3.mem.load s = q := by
        rw [← hq]
        cases s with
        | root => show h3.mem.root = h.mem.root; rw [← hh3] at g3 ⊢; exact g3.2.2.1
        | child n i => show (h3.mem.nodes n).child i = _; rw [hnd n (hlive n thr.1)]; rfl
      have hkq : keyOf h3.mem q = keyOf h.mem q := by
        cases q with
        | null => rfl
        | leaf l => show (h3.mem.leaves l).key = _; rw [hlv]; rfl
        | node c => show (h3.mem.nodes c).path = _; rw [hnd c (hlive c hql)]; rfl
      have hfits : ∀ K, Fits h3.mem K q ↔ Fits h.mem K q := by
        intro K
        cases q with
        | null => exact Iff.rfl
        | leaf l => simp only [Fits, hlv]
        | node c => simp only [Fits, hnd c (hlive c hql)]
      have hthr3 : Through h3 key s := by
        cases s with
        | root => exact trivial
        | child n i =>
          refine ⟨by rw [hl3.1]; exact thr.1, ?_⟩
          have := thr.2
          unfold slotPre at this ⊢
          rw [hnd n (hlive n thr.1)]; exact this
      rw [← hm3] at f1 f2 f3
      have hbr : BranchOk h3 s nn k := by
        refine ⟨?_, ?_, ?_, ?_, ?_, ?_, ?_, ?_, ?_, ?_, ?_, ?_, ?_⟩
        · rw [hload]; exact hne
        · rw [hlv, hkey]; exact hthr3
        · rw [hl3.1]; exact hoff
        · rw [hl3.2]; exact hk
        · exact ⟨v, by rw [hlv]; exact hval⟩
        · rw [f2]; exact ⟨b1, b2⟩
        · rw [f2, f3, hlv, hkey]
        · rw [hload, hkq, f2, hlv, hkey]; exact b3
        · rw [f2, hlv, hkey, f1, if_neg (fun e => b5 e.symm), if_pos rfl]
        · rw [hload, hkq, f2, f1, if_pos rfl]
        · intro i hi1 hi2
          rw [hlv, hkey, f2] at hi1
          rw [hload, hkq, f2] at hi2
          rw [f1, if_neg hi2, if_neg hi1]
        · intro c hc
          rw [hload] at hc
          subst hc
          rw [f2, hnd c (hlive c hql)]
          have hs4 := (hg.shp c hql).2.1
          by_contra hcon
          refine hmiss (show _ = _ from (prefix_mono b3 (by omega)).symm)
        · intro n i hsi
          subst hsi
          have hn := thr.1
          rw [f2, hnd n (hlive n hn)]
          have hu := (hg.kid n hn i).2
          rw [show (h.mem.nodes n).child i = q from hq] at hu
          have h1 := under_pre hu (keyOf_fits h.mem hne)
          have h2 := b6 _ (h1.trans thr.2.symm)
          have hs4 := (hg.shp n hn).2.1
          omega
      refine branch_final g3.1 t3 r3 fu3 hin (by rw [hnx]; exact hlt) hinN (by rw [hnxN]; exact hltN)
        (by rw [hlv]; exact hkey) (by rw [hlv]; exact hval) hbr ?_ ?_
      · rw [hload, hfits]; exact hmiss
      · rw [hload, hkq, f2]; exact b5

end

/-- `critnib_insert` carries out an insertion. -/
theorem insert_sim {g : G V} (hi : Idle g) (key : W) (v : V) (upd lo no : Bool) :
    ∃ ss r, insertStores g.mem key v upd lo no = some (ss, r) ∧
      Sim (.insert key v upd lo no) (.inserted r) g ss := by
  obtain ⟨hg, ht, LN, LL, r, fu⟩ := id hi
  unfold insertStores
  rcases allocLeaf_spec r fu lo with ⟨rfl, ha⟩ | ⟨k, as, LL', ha, hpa, hk, hin, r1, hlt, fu1⟩
  · rw [ha]
    exact ⟨_, _, rfl, .inr ⟨.inl rfl, rfl, rfl, hi⟩⟩
  · rw [ha]
    dsimp only
    have hp : ∀ a ∈ as ++ [.key k key, .val k (.user v)], Priv g.ln g.ll a := by
      intro a h
      rcases List.mem_append.1 h with h | h
      · exact hpa a h
      · simp only [List.mem_cons, List.not_mem_nil, or_false] at h
        rcases h with rfl | rfl <;> exact hk
    have r2 := fillLeaf_res r1 hin key v
    have fu2 : Full ((g.after as).after [.key k key, .val k (.user v)]) LN LL' [] [k] := fu1.same rfl rfl rfl rfl rfl rfl
    have hg2 := gi_priv _ hg hp
    have ht2 := two_priv _ hg hp ht
    have hlv : ∃ x, (g.after (as ++ [.key k key, .val k (.user v)])).mem =
        (x : Mem V).stores [.key k key, .val k (.user v)] ∧ k < x.nextL := ⟨_, stores_append _ _ _, hlt⟩
    rw [after_append] at r2 fu2
    generalize hss : as ++ [.key k key, .val k (.user v)] = ss at hp r2 fu2 hg2 ht2 hlv
    have hm : g.mem.stores ss = (g.after ss).mem := rfl
    rw [hm]
    have hkey : ((g.after ss).mem.leaves k).key = key := by
      obtain ⟨x, hx, _⟩ := hlv; rw [hx]; simp [Mem.stores, Mem.store]
    have hval : ((g.after ss).mem.leaves k).val = .user v := by
      obtain ⟨x, hx, _⟩ := hlv; rw [hx]; simp [Mem.stores, Mem.store]
    have hlt2 : k < (g.after ss).mem.nextL := by
      obtain ⟨x, hx, hx2⟩ := hlv; rw [hx]; exact hx2
    by_cases hr : (g.after ss).mem.root = .null
    · rw [hr]
      refine ⟨_, _, rfl, .inl ?_⟩
      exact allS_priv ss hg hp (link_final hg2.1 ht2 r2 fu2 hk hin hlt2 hkey hval trivial hr)
    · obtain ⟨s, p, hd, hs, thr, hnf⟩ := descend_spec hg2.1 key depth .root (g.after ss).mem.root rfl
        trivial (by decide) (fun n hn => by
          have hl := hg2.1.root
          rw [hn] at hl
          have := (hg2.1.shp n hl).1
          unfold depth
          omega)
      have fin : ∃ ss' r', (match some (s, p) with
            | none => none
            | some (s, Ptr.null) => some (ss ++ [Store.slot s (Ptr.leaf k)], InsRes.ok)
            | some (s, n) => insertFull (g.after ss).mem ss k key v upd no s n) = some (ss', r') ∧
          Sim (.insert key v upd lo no) (.inserted r') g ss' := by
        by_cases hpn : p = .null
        · subst hpn
          refine ⟨_, _, rfl, .inl ?_⟩
          exact allS_priv ss hg hp (link_final hg2.1 ht2 r2 fu2 hk hin hlt2 hkey hval thr hs)
        · have := insertFull_sim (upd := upd) (lo := lo) (no := no) (q := p) rfl hg hp hg2.1 ht2 r2 fu2 hk hin
            hlt2 hkey hval thr hs hpn hnf
          cases p with
          | null => exact absurd rfl hpn
          | leaf l => exact this
          | node n => exact this
      rw [← hd] at fin
      revert fin hr
      cases (g.after ss).mem.root with
      | null => intro hr; exact absurd rfl hr
      | leaf l => exact fun _ h => h
      | node n => exact fun _ h => h

end Verif.Critnib.Conc
