import Verif.IpcMem.Chains
import Batteries.Data.List.Perm
/-!
# Lemmas for the cache of opened IPC handles: looking up in a table and taking an item out of it
-/
namespace Verif.IpcMem

/-- The table `T` has the items `l`, in the order in which they were added. -/
structure TabOk (s : St) (l : List Addr) (T : Addr) (t : Tab) (r : Arr) (B : Nat → List Addr) : Prop where
  seg : Seg (s.link .aNext) (s.link .aPrev) 0 l 0
  nodup : l.Nodup
  zero : 0 ∉ l
  live : ∀ a ∈ l, s.live a = true
  tbl : ∀ a ∈ l, s.link .tbl a = T
  tab : s.tabs T = some t
  tail : t.tail = l.getLastD 0
  items : t.items = l.length
  num : t.num = 2 ^ t.log2
  arr : s.arrs t.buckets = some r
  chains : Chains (s.link .bNext) (s.link .bPrev) (fun a => (s.data a).hashv) t.num r l B

theorem TabOk.congr {s s' : St} {l : List Addr} {T : Addr} {t : Tab} {r : Arr} {B : Nat → List Addr} (h : TabOk s l T t r B)
    (h1 : ∀ a ∈ l, s'.live a = s.live a) (h2 : ∀ a ∈ l, ∀ k, k ≠ .next → k ≠ .prev → s'.link k a = s.link k a)
    (h3 : ∀ a ∈ l, (s'.data a).hashv = (s.data a).hashv) (h4 : s'.tabs T = s.tabs T)
    (h5 : s'.arrs t.buckets = s.arrs t.buckets) : TabOk s' l T t r B where
  seg := seg_congr (fun x hx => ⟨h2 x hx _ (by decide) (by decide), h2 x hx _ (by decide) (by decide)⟩) h.seg
  nodup := h.nodup
  zero := h.zero
  live := fun a ha => by rw [h1 a ha, h.live a ha]
  tbl := fun a ha => by rw [h2 a ha _ (by decide) (by decide), h.tbl a ha]
  tab := by rw [h4, h.tab]
  tail := h.tail
  items := h.items
  num := h.num
  arr := by rw [h5, h.arr]
  chains := h.chains.congr (fun a ha => ⟨h2 a ha _ (by decide) (by decide), h2 a ha _ (by decide) (by decide)⟩) h3

theorem TabOk.bkt_lt {s : St} {l : List Addr} {T : Addr} {t : Tab} {r : Arr} {B : Nat → List Addr} (h : TabOk s l T t r B)
    (v : Nat) : toBkt v t.num < t.num := by
  rw [h.num]
  exact toBkt_lt v _

theorem chain_length_le {bn bp : Addr → Addr} {hv : Addr → Nat} {n : Nat} {r : Arr} {l : List Addr} {B : Nat → List Addr}
    (h : Chains bn bp hv n r l B) {i : Nat} (hi : i < n) : (B i).length ≤ l.length :=
  (List.subperm_of_subset (h.nodup i hi) fun _ ha => ((h.mem i hi _).1 ha).1).length_le

/-- The search in a table finds the item with the key, if there is one. -/
theorem hashFind_ok {hash : Key → Nat} {s : St} {l : List Addr} {T : Addr} {t : Tab} {r : Arr} {B : Nat → List Addr} {c : Addr}
    {key : Key} (h : TabOk s l T t r B) (hc : s.caches c = some (l.headD 0)) (hne : l ≠ [])
    (hh : ∀ a ∈ l, (s.data a).hashv = hash (s.data a).key) {fuel : Nat} (hf : l.length < fuel) :
    ∃ x, hashFind hash fuel c key s = .ok x s ∧
      ((x ∈ l ∧ (s.data x).key = key) ∨ (x = 0 ∧ ∀ a ∈ l, (s.data a).key ≠ key)) := by
  have hh0 : l.headD 0 ≠ 0 := (headD_ne_zero h.zero).2 hne
  have hhm : l.headD 0 ∈ l := by
    cases l with
    | nil => exact absurd rfl hne
    | cons y k => simp
  have hb := h.bkt_lt (hash key)
  simp only [hashFind, bind_app, getHead_app hc, ite_app, if_neg hh0, rd_app (h.live _ hhm), h.tbl _ hhm, getT_app h.tab,
    getBkt_app h.arr (by rw [h.chains.len]; exact hb)]
  rw [h.chains.head _ hb]
  have hlen := chain_length_le h.chains hb
  rw [findIn_ok fuel (by omega) (h.chains.zero h.zero hb) (fun x hx => h.live x ((h.chains.mem _ hb x).1 hx).1)
    (h.chains.seg _ hb)]
  refine ⟨_, rfl, ?_⟩
  cases hfind : (B (toBkt (hash key) t.num)).find? fun a => decide ((s.data a).hashv = hash key ∧ (s.data a).key = key) with
  | some x =>
    have h1 := List.find?_some hfind
    have h2 := List.mem_of_find?_eq_some hfind
    simp only [decide_eq_true_eq] at h1
    exact .inl ⟨((h.chains.mem _ hb x).1 h2).1, h1.2⟩
  | none =>
    refine .inr ⟨rfl, fun a ha hk => ?_⟩
    rw [List.find?_eq_none] at hfind
    have h1 := hh a ha
    rw [hk] at h1
    have h2 : a ∈ B (toBkt (hash key) t.num) := (h.chains.mem _ hb a).2 ⟨ha, by rw [h1]⟩
    exact hfind a h2 (by simp [h1, hk])

theorem hashFind_empty {hash : Key → Nat} {s : St} {c : Addr} {key : Key} {fuel : Nat} (hc : s.caches c = some 0) :
    hashFind hash fuel c key s = .ok 0 s := by
  simp only [hashFind, bind_app, getHead_app hc, ite_app, if_true, pure_app]

/-- What an addition to a table or a removal from it changes: only the items `S`, the table `T`, `T'`, the array `A`, `A'`
(before and after, if there is one). -/
structure Touch (s s' : St) (S : List Addr) (T T' A A' : Option Addr) : Prop where
  live : s'.live = s.live
  glob : s'.glob = s.glob
  lru : ∀ k, k = .next ∨ k = .prev → s'.link k = s.link k
  link : ∀ a, a ∉ S → ∀ k, s'.link k a = s.link k a
  data : ∀ a, a ∉ S → s'.data a = s.data a
  tabs : ∀ X, some X ≠ T → some X ≠ T' → s'.tabs X = s.tabs X
  oldT : ∀ X, some X = T → some X ≠ T' → s'.tabs X = none
  newT : ∀ X, some X = T' → some X ≠ T → s.tabs X = none
  arrs : ∀ X, some X ≠ A → some X ≠ A' → s'.arrs X = s.arrs X
  oldA : ∀ X, some X = A → some X ≠ A' → s'.arrs X = none
  newA : ∀ X, some X = A' → some X ≠ A → s.arrs X = none

theorem delInBkt_ok {s : St} {A e n : Addr} {r : Arr} {l : List Addr} {B : Nat → List Addr} {hv : Addr → Nat}
    (ha : s.arrs A = some r) (h : Chains (s.link .bNext) (s.link .bPrev) hv n r l B) (hz : 0 ∉ l) (hl : l.Nodup) (he : e ∈ l)
    (hlive : ∀ a ∈ l, s.live a = true) (hi : toBkt (hv e) n < n) :
    ∃ L r' B', delInBkt A (toBkt (hv e) n) e s = .ok () { s with link := L, arrs := upd s.arrs A (some r') } ∧
      Chains (L .bNext) (L .bPrev) hv n r' (l.erase e) B' ∧ (∀ k, k ≠ .bNext → k ≠ .bPrev → L k = s.link k) ∧
      ∀ a, a ∉ l → ∀ k, L k a = s.link k a := by
  have hle := hlive e he
  have h1 := chains_del (m := (r.cell (toBkt (hv e) n)).mult) h hz hl he hi rfl
  have hei : e ∈ B (toBkt (hv e) n) := (h.mem _ hi e).2 ⟨he, rfl⟩
  obtain ⟨k1, k2, hk⟩ := List.append_of_mem hei
  have hs := h.seg _ hi
  rw [hk] at hs
  obtain ⟨ep, en⟩ := seg_mid hs
  have hsub : ∀ a ∈ B (toBkt (hv e) n), a ∈ l := fun a ha => ((h.mem _ hi a).1 ha).1
  have hpl : s.link .bPrev e ≠ 0 → s.link .bPrev e ∈ l := by
    intro h'
    rw [ep] at h' ⊢
    have h1 : k1 ≠ [] := fun e' => h' (by rw [e']; rfl)
    exact hsub _ (by rw [hk]; exact List.mem_append_left _ (lastD_mem h1))
  have hnl : s.link .bNext e ≠ 0 → s.link .bNext e ∈ l := by
    intro h'
    rw [en] at h' ⊢
    refine hsub _ ?_
    rw [hk]
    cases k2 with
    | nil => exact absurd rfl h'
    | cons y k => simp
  refine ⟨if s.link .bNext e ≠ 0 then updL (if s.link .bPrev e ≠ 0 then updL s.link .bNext (s.link .bPrev e) (s.link .bNext e)
    else s.link) .bPrev (s.link .bNext e) (s.link .bPrev e) else (if s.link .bPrev e ≠ 0 then
      updL s.link .bNext (s.link .bPrev e) (s.link .bNext e) else s.link),
    { r with cell := upd r.cell (toBkt (hv e) n) ⟨if (r.cell (toBkt (hv e) n)).head = e then s.link .bNext e else
      (r.cell (toBkt (hv e) n)).head, (r.cell (toBkt (hv e) n)).count - 1, (r.cell (toBkt (hv e) n)).mult⟩ },
    upd B (toBkt (hv e) n) ((B (toBkt (hv e) n)).erase e), ?_, ?_, ?_, ?_⟩
  rotate_left 1
  · exact h1.congr (hv' := hv) (fun a _ => by
      by_cases hp : s.link .bPrev e = 0 <;> by_cases hn : s.link .bNext e = 0 <;>
        simp [hp, hn, updL_same, updL_ne _ _ _ (show Fld.bNext ≠ Fld.bPrev by decide),
          updL_ne _ _ _ (show Fld.bPrev ≠ Fld.bNext by decide)]) fun _ _ => rfl
  · intro k h2 h3
    by_cases hp : s.link .bPrev e = 0 <;> by_cases hn : s.link .bNext e = 0 <;>
      simp [hp, hn, updL_ne _ _ _ h2, updL_ne _ _ _ h3]
  · intro a hal k
    have h2 : s.link .bPrev e ≠ 0 → a ≠ s.link .bPrev e := fun h' e' => hal (e' ▸ hpl h')
    have h3 : s.link .bNext e ≠ 0 → a ≠ s.link .bNext e := fun h' e' => hal (e' ▸ hnl h')
    by_cases hp : s.link .bPrev e = 0 <;> by_cases hn : s.link .bNext e = 0 <;> simp [hp, hn, updL]
    · intro _ e'; exact absurd e' (h3 hn)
    · intro _ e'; exact absurd e' (h2 hp)
    · rw [if_neg fun h' => h3 hn h'.2, if_neg fun h' => h2 hp h'.2]
  · simp only [delInBkt, bind_app, getBkt, ha, h.len, hi, rd, hle, setBkt, ite_app, ↓reduceIte]
    by_cases hp : s.link .bPrev e ≠ 0
    · rw [if_pos hp]
      simp only [wr, hlive _ (hpl hp), ↓reduceIte]
      by_cases hn : s.link .bNext e ≠ 0
      · rw [if_pos hn]
        simp only [hlive _ (hnl hn), ↓reduceIte, if_pos hn, if_pos hp]
      · rw [if_neg hn]
        simp only [pure_app, if_pos hp, if_neg hn]
    · rw [if_neg hp]
      simp only [pure_app]
      by_cases hn : s.link .bNext e ≠ 0
      · rw [if_pos hn]
        simp only [wr, hlive _ (hnl hn), ↓reduceIte, if_neg hp, if_pos hn]
      · rw [if_neg hn]
        simp only [if_neg hn, if_neg hp]

end Verif.IpcMem
