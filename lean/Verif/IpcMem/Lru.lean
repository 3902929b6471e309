import Verif.IpcMem.Lists
import Mathlib.Data.List.Induction
/-!
# Lemmas for the cache of opened IPC handles: the list in least-recently-used order
-/
namespace Verif.IpcMem

theorem bind_app {α β : Type} (m : M α) (f : α → M β) (s : St) :
    (m >>= f) s = match m s with
      | .undef => .undef
      | .exit => .exit
      | .ok a s => f a s := rfl
theorem pure_app {α : Type} (a : α) (s : St) : (pure a : M α) s = .ok a s := rfl

theorem ite_app {α : Type} (c : Prop) [Decidable c] (m n : M α) (s : St) : (if c then m else n) s = if c then m s else n s := by
  split <;> rfl

theorem rd_app {s : St} {k : Fld} {a : Addr} (h : s.live a = true) : rd k a s = .ok (s.link k a) s := by simp [rd, h]
theorem wr_app {s : St} {k : Fld} {a v : Addr} (h : s.live a = true) :
    wr k a v s = .ok () { s with link := updL s.link k a v } := by simp [wr, h]
theorem getD_app {s : St} {a : Addr} (h : s.live a = true) : getD a s = .ok (s.data a) s := by simp [getD, h]
theorem setD_app {s : St} {a : Addr} {d : Data} (h : s.live a = true) :
    setD a d s = .ok () { s with data := upd s.data a d } := by simp [setD, h]
theorem getG_app {s : St} {g : Glob} (h : s.glob = some g) : getG s = .ok g s := by simp [getG, h]
theorem setG_app {s : St} {g g' : Glob} (h : s.glob = some g) : setG g' s = .ok () { s with glob := some g' } := by
  simp [setG, h]
theorem getHead_app {s : St} {c h : Addr} (e : s.caches c = some h) : getHead c s = .ok h s := by simp [getHead, e]
theorem setHead_app {s : St} {c h v : Addr} (e : s.caches c = some h) :
    setHead c v s = .ok () { s with caches := upd s.caches c (some v) } := by simp [setHead, e]
theorem getT_app {s : St} {a : Addr} {t : Tab} (e : s.tabs a = some t) : getT a s = .ok t s := by simp [getT, e]
theorem setT_app {s : St} {a : Addr} {t t' : Tab} (e : s.tabs a = some t) :
    setT a t' s = .ok () { s with tabs := upd s.tabs a (some t') } := by simp [setT, e]
theorem getBkt_app {s : St} {a i : Addr} {r : Arr} (e : s.arrs a = some r) (h : i < r.len) :
    getBkt a i s = .ok (r.cell i) s := by simp [getBkt, e, h]
theorem setBkt_app {s : St} {a i : Addr} {r : Arr} {b : Bkt} (e : s.arrs a = some r) (h : i < r.len) :
    setBkt a i b s = .ok () { s with arrs := upd s.arrs a (some { r with cell := upd r.cell i b }) } := by
  simp [setBkt, e, h]

theorem dlPrepend_ok {s : St} {g : Glob} {e : Addr} {l : List Addr} (hg : s.glob = some g)
    (hd : Dl (s.link .next) (s.link .prev) g.lru l) (hl : ∀ x ∈ l, s.live x = true) (he : s.live e = true) (hn : e ∉ l)
    (h0 : e ≠ 0) : ∃ L, dlPrepend e s = .ok () { s with link := L, glob := some { g with lru := e } } ∧
      Dl (L .next) (L .prev) e (e :: l) ∧ ∀ k, k ≠ .next → k ≠ .prev → L k = s.link k := by
  have h1 := dl_prepend hd hn h0
  by_cases h : g.lru ≠ 0
  · have hm : g.lru ∈ l := by
      have := hd.head
      cases l with
      | nil => exact absurd this h
      | cons y l => simp [this]
    have hle := hl _ hm
    have hne : g.lru ≠ e := fun e' => hn (e' ▸ hm)
    refine ⟨updL (updL (updL s.link .next e g.lru) .prev e (s.link .prev g.lru)) .prev g.lru e, ?_, ?_, ?_⟩
    · simp only [dlPrepend, bind_app, getG, hg, wr, he, ite_app, if_pos h, rd, hle, setG, ↓reduceIte,
        updL_ne _ _ _ (show Fld.prev ≠ Fld.next by decide)]
    · rw [if_pos h] at h1
      simp only [updL_same, updL_ne _ _ _ (show Fld.next ≠ Fld.prev by decide),
        updL_ne _ _ _ (show Fld.prev ≠ Fld.next by decide)]
      exact h1
    · intro k h2 h3
      rw [updL_ne _ _ _ h3, updL_ne _ _ _ h3, updL_ne _ _ _ h2]
  · refine ⟨updL (updL s.link .next e g.lru) .prev e e, ?_, ?_, ?_⟩
    · simp only [dlPrepend, bind_app, getG, hg, wr, he, ite_app, if_neg h, setG, ↓reduceIte]
    · rw [if_neg h] at h1
      simp only [updL_same, updL_ne _ _ _ (show Fld.next ≠ Fld.prev by decide),
        updL_ne _ _ _ (show Fld.prev ≠ Fld.next by decide)]
      exact h1
    · intro k h2 h3
      rw [updL_ne _ _ _ h3, updL_ne _ _ _ h2]

theorem dlDelete_ok {s : St} {g : Glob} {e : Addr} {l : List Addr} (hg : s.glob = some g)
    (hd : Dl (s.link .next) (s.link .prev) g.lru l) (hl : ∀ x ∈ l, s.live x = true) (he : e ∈ l) :
    ∃ L h, dlDelete e s = .ok () { s with link := L, glob := some { g with lru := h } } ∧
      Dl (L .next) (L .prev) h (l.erase e) ∧ ∀ k, k ≠ .next → k ≠ .prev → L k = s.link k := by
  have hle := hl e he
  have hlru : g.lru ∈ l := by
    have := hd.head
    cases l with
    | nil => cases he
    | cons y l => simp [this]
  have hlru0 : g.lru ≠ 0 := fun e' => hd.zero (e' ▸ hlru)
  obtain ⟨l1, l2, rfl⟩ := List.append_of_mem he
  have hn1 : e ∉ l1 := fun h' => (List.nodup_append.1 hd.nodup).2.2 e h' e (by simp) rfl
  have her : (l1 ++ e :: l2).erase e = l1 ++ l2 := by
    rw [List.erase_append_right _ hn1, List.erase_cons_head]
  rw [her]
  obtain ⟨ep, en⟩ := seg_mid hd.seg
  have hpm : s.link .prev e ∈ l1 ++ e :: l2 := by
    rw [ep]
    by_cases h : l1 = []
    · subst h
      exact lastD_mem (l := e :: l2) (p := (e :: l2).getLastD 0) (by simp)
    · exact List.mem_append_left _ (lastD_mem h)
  have hp0 : s.link .prev e ≠ 0 := fun e' => hd.zero (e' ▸ hpm)
  simp only [dlDelete, bind_app, getG_app hg, ite_app, if_neg hlru0, rd_app hle, if_neg hp0]
  by_cases hp : s.link .prev e = e
  · rw [if_pos hp]
    have h1 : l1 = [] := by
      refine Classical.byContradiction fun h => ?_
      rw [hp] at ep
      have h2 : l1.getLastD ((l1 ++ e :: l2).getLastD 0) ∈ l1 := lastD_mem h
      exact hn1 (ep ▸ h2)
    subst h1
    have h2 : l2 = [] := by
      refine Classical.byContradiction fun h => ?_
      rw [hp] at ep
      simp only [List.nil_append, List.getLastD_nil] at ep
      have e2 : (e :: l2).getLastD 0 = l2.getLastD e := by cases l2 <;> rfl
      rw [e2] at ep
      have h3 : l2.getLastD e ∈ l2 := lastD_mem h
      rw [← ep] at h3
      exact (List.nodup_cons.1 hd.nodup).1 h3
    subst h2
    refine ⟨s.link, 0, setG_app hg, ⟨rfl, trivial, List.nodup_nil, by simp⟩, fun _ _ _ => rfl⟩
  · rw [if_neg hp]
    by_cases hh : e = g.lru
    · rw [if_pos hh]
      have h1 : l1 = [] := by
        cases l1 with
        | nil => rfl
        | cons a l1 =>
          have := hd.head
          simp only [List.cons_append, List.headD_cons] at this
          exact absurd (by simp [hh, this]) hn1
      subst h1
      cases l2 with
      | nil => exact absurd (by rw [ep]; rfl) hp
      | cons y k =>
        have hly : s.live y = true := hl y (by simp)
        have hny : s.link .next e = y := en
        refine ⟨updL s.link .prev y (s.link .prev e), y, ?_, ?_, ?_⟩
        · simp only [hny, wr, hly, setG, hg, ↓reduceIte]
        · have h2 := hd
          rw [← hh, List.nil_append] at h2
          have h3 := dl_delete_head h2
          simp only [updL_same, updL_ne _ _ _ (show Fld.next ≠ Fld.prev by decide)]
          exact h3
        · intro k h2 h3
          rw [updL_ne _ _ _ h3]
    · rw [if_neg hh]
      have h1 : l1 ≠ [] := by
        rintro rfl
        exact hh hd.head.symm
      have h2 := dl_delete_mid hd h1
      have hlp := hl _ hpm
      by_cases hn : s.link .next e ≠ 0
      · rw [if_pos hn] at h2
        have hnm : s.link .next e ∈ l1 ++ e :: l2 := by
          rw [en] at hn ⊢
          cases l2 with
          | nil => exact absurd rfl hn
          | cons y k => simp
        refine ⟨updL (updL s.link .next (s.link .prev e) (s.link .next e)) .prev (s.link .next e) (s.link .prev e), g.lru, ?_,
          ?_, ?_⟩
        · simp only [wr, hlp, if_pos hn, hl _ hnm, hg, ↓reduceIte]
        · simp only [updL_same, updL_ne _ _ _ (show Fld.next ≠ Fld.prev by decide),
            updL_ne _ _ _ (show Fld.prev ≠ Fld.next by decide)]
          exact h2
        · intro k h3 h4
          rw [updL_ne _ _ _ h4, updL_ne _ _ _ h3]
      · rw [if_neg hn] at h2
        refine ⟨updL (updL s.link .next (s.link .prev e) (s.link .next e)) .prev g.lru (s.link .prev e), g.lru, ?_,
          ?_, ?_⟩
        · simp only [wr, hlp, if_neg hn, hl _ hlru, hg, ↓reduceIte]
        · simp only [updL_same, updL_ne _ _ _ (show Fld.next ≠ Fld.prev by decide),
            updL_ne _ _ _ (show Fld.prev ≠ Fld.next by decide)]
          exact h2
        · intro k h3 h4
          rw [updL_ne _ _ _ h4, updL_ne _ _ _ h3]

/-- The entries are counted. -/
theorem dlCount_ok {s : St} : ∀ {l : List Addr} {p : Addr} (fuel : Nat), l.length < fuel → 0 ∉ l →
    (∀ x ∈ l, s.live x = true) → Seg (s.link .next) (s.link .prev) p l 0 →
    dlCount fuel (l.headD 0) s = .ok l.length s := by
  intro l
  induction l with
  | nil =>
    intro p fuel hf _ _ _
    obtain ⟨f, rfl⟩ : ∃ f, fuel = f + 1 := ⟨fuel - 1, by simp at hf; omega⟩
    simp [dlCount, pure_app]
  | cons x l ih =>
    intro p fuel hf hz hl hs
    obtain ⟨f, rfl⟩ : ∃ f, fuel = f + 1 := ⟨fuel - 1, by simp at hf; omega⟩
    have hx : x ≠ 0 := fun e => hz (by simp [e])
    rw [List.headD_cons, dlCount, if_neg hx]
    simp only [bind_app, rd_app (hl x (by simp))]
    rw [hs.1.2, ih f (by simp at hf; omega) (fun h => hz (by simp [h])) (fun y hy => hl y (by simp [hy])) hs.2]
    rfl

/-- The search for a candidate, from the entry `x` on, where the entries after `x` have been passed. -/
theorem candidate_ok {s : St} {g : Glob} (hg : s.glob = some g) {all : List Addr}
    (hd : Dl (s.link .next) (s.link .prev) g.lru all) (hl : ∀ x ∈ all, s.live x = true) :
    ∀ (l : List Addr) (x : Addr) (k : List Addr), all = l ++ x :: k → ∀ fuel, l.length < fuel →
      candidate fuel x s =
        .ok (((l ++ [x]).reverse.find? fun a => decide ((s.data a).ref = 0)).getD 0) s := by
  have hp : ∀ l x k, all = l ++ x :: k → s.link .prev x = l.getLastD (all.getLastD 0) := by
    intro l x k e
    have := hd.seg
    rw [e] at this
    rw [(seg_mid this).1, e]
  have hlru : all ≠ [] → g.lru ∈ all ∧ s.link .prev g.lru = all.getLastD 0 := by
    intro h
    cases hall : all with
    | nil => exact absurd hall h
    | cons y k =>
      have h1 := hd.head
      rw [hall] at h1
      have h2 := hp [] y k hall
      simp only [List.headD_cons] at h1
      rw [h1]
      exact ⟨by simp, by rw [h2, hall]; rfl⟩
  intro l
  induction l using List.reverseRecOn with
  | nil =>
    intro x k e fuel hf
    obtain ⟨f, rfl⟩ : ∃ f, fuel = f + 1 := ⟨fuel - 1, by omega⟩
    have hne : all ≠ [] := by rw [e]; simp
    obtain ⟨h1, h2⟩ := hlru hne
    have hlx := hl x (by rw [e]; simp)
    simp only [candidate, bind_app, getD_app hlx, ite_app]
    by_cases h : (s.data x).ref = 0
    · rw [if_pos h]
      simp [h, pure_app]
    · rw [if_neg h]
      simp only [rd_app hlx, getG_app hg, rd_app (hl _ h1)]
      have h3 := hp [] x k e
      simp only [List.getLastD_nil] at h3
      rw [h2, h3]
      simp [h, pure_app]
  | append_singleton l y ih =>
    intro x k e fuel hf
    obtain ⟨f, rfl⟩ : ∃ f, fuel = f + 1 := ⟨fuel - 1, by omega⟩
    have hne : all ≠ [] := by rw [e]; simp
    obtain ⟨h1, h2⟩ := hlru hne
    have hlx := hl x (by rw [e]; simp)
    simp only [candidate, bind_app, getD_app hlx, ite_app]
    by_cases h : (s.data x).ref = 0
    · rw [if_pos h]
      simp [h, pure_app]
    · rw [if_neg h]
      simp only [rd_app hlx, getG_app hg, rd_app (hl _ h1)]
      have h3 := hp (l ++ [y]) x k e
      have h4 : (l ++ [y]).getLastD (all.getLastD 0) = y := by simp
      rw [h4] at h3
      have h5 : all = l ++ y :: (x :: k) := by rw [e]; simp
      have h6 : y ≠ all.getLastD 0 := by
        rw [e, getLastD_append_cons]
        intro h'
        have hd' := hd.nodup
        rw [e] at hd'
        have h7 : k.getLastD x ∈ x :: k := by
          have : k.getLastD x = (x :: k).getLastD 0 := by cases k <;> rfl
          rw [this]
          exact lastD_mem (by simp)
        exact (List.nodup_append.1 hd').2.2 y (by simp) y (h' ▸ h7) rfl
      rw [h2, h3, if_pos h6, ih y (x :: k) h5 f (by simp at hf; omega)]
      congr 1
      simp [h]

end Verif.IpcMem
