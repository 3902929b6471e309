import Verif.IpcMem.Lru
/-!
# Lemmas for the cache of opened IPC handles: the chains of a table
-/
namespace Verif.IpcMem

theorem toBkt_lt (h k : Nat) : toBkt h (2 ^ k) < 2 ^ k := by
  unfold toBkt
  rw [Nat.and_two_pow_sub_one_eq_mod]
  exact Nat.mod_lt _ (Nat.two_pow_pos k)

/-- The array `r` has `n` buckets; bucket `i` has the items `B i`, which are the items of `l` that belong there. -/
structure Chains (bn bp : Addr → Addr) (hv : Addr → Nat) (n : Nat) (r : Arr) (l : List Addr) (B : Nat → List Addr) : Prop where
  len : r.len = n
  seg : ∀ i, i < n → Seg bn bp 0 (B i) 0
  head : ∀ i, i < n → (r.cell i).head = (B i).headD 0
  count : ∀ i, i < n → (r.cell i).count = (B i).length
  nodup : ∀ i, i < n → (B i).Nodup
  mem : ∀ i, i < n → ∀ a, a ∈ B i ↔ a ∈ l ∧ toBkt (hv a) n = i

variable {bn bp bn' bp' : Addr → Addr} {hv hv' : Addr → Nat} {n : Nat} {r : Arr} {l l' : List Addr} {B : Nat → List Addr}

theorem Chains.congr (h : Chains bn bp hv n r l B) (h1 : ∀ a ∈ l, bn' a = bn a ∧ bp' a = bp a)
    (h2 : ∀ a ∈ l, hv' a = hv a) : Chains bn' bp' hv' n r l B := by
  refine ⟨h.len, fun i hi => ?_, h.head, h.count, h.nodup, fun i hi a => ?_⟩
  · exact seg_congr (fun x hx => h1 x ((h.mem i hi x).1 hx).1) (h.seg i hi)
  · rw [h.mem i hi a]
    exact ⟨fun ⟨a1, a2⟩ => ⟨a1, by rw [h2 a a1]; exact a2⟩, fun ⟨a1, a2⟩ => ⟨a1, by rw [← h2 a a1]; exact a2⟩⟩

theorem Chains.perm (h : Chains bn bp hv n r l B) (h1 : ∀ a, a ∈ l ↔ a ∈ l') : Chains bn bp hv n r l' B :=
  ⟨h.len, h.seg, h.head, h.count, h.nodup, fun i hi a => by rw [h.mem i hi a, h1 a]⟩

/-- An empty array. -/
theorem chains_empty (bn bp : Addr → Addr) (hv : Addr → Nat) (n : Nat) :
    Chains bn bp hv n ⟨n, fun _ => ⟨0, 0, 0⟩⟩ [] fun _ => [] :=
  ⟨rfl, fun _ _ => trivial, fun _ _ => rfl, fun _ _ => rfl, fun _ _ => List.nodup_nil, fun _ _ _ => by simp⟩

theorem Chains.zero (h : Chains bn bp hv n r l B) (hz : 0 ∉ l) {i : Nat} (hi : i < n) : 0 ∉ B i :=
  fun h' => hz ((h.mem i hi 0).1 h').1

/-- An item is put in front of its bucket's chain. -/
theorem chains_add {e i m : Nat} (h : Chains bn bp hv n r l B) (hz : 0 ∉ l) (he : e ∉ l) (hi : i < n)
    (hb : toBkt (hv e) n = i) :
    Chains (upd bn e (B i |>.headD 0))
      (if (B i).headD 0 ≠ 0 then upd (upd bp e 0) ((B i).headD 0) e else upd bp e 0) hv n
      { r with cell := upd r.cell i ⟨e, (r.cell i).count + 1, m⟩ } (e :: l) (upd B i (e :: B i)) := by
  have hz' := h.zero hz hi
  have hei : e ∉ B i := fun h' => he ((h.mem i hi e).1 h').1
  refine ⟨h.len, fun j hj => ?_, fun j hj => ?_, fun j hj => ?_, fun j hj => ?_, fun j hj a => ?_⟩
  · by_cases hji : j = i
    · subst hji
      rw [upd_same]
      exact nseg_front (h.seg j hj) (h.nodup j hj) hz' hei
    · rw [upd_ne _ _ hji]
      refine seg_congr (fun x hx => ?_) (h.seg j hj)
      have h1 := (h.mem j hj x).1 hx
      have h2 : x ≠ e := fun e' => he (e' ▸ h1.1)
      refine ⟨upd_ne _ _ h2, ?_⟩
      split
      · rename_i h3
        have h4 : B i ≠ [] := (headD_ne_zero hz').1 h3
        have h5 : (B i).headD 0 ∈ B i := by
          cases hB : B i with
          | nil => exact absurd hB h4
          | cons y k => simp
        have h6 : x ≠ (B i).headD 0 := by
          intro e'
          rw [← e'] at h5
          have := ((h.mem i hi x).1 h5).2
          rw [h1.2] at this
          exact hji this
        rw [upd_ne _ _ h6, upd_ne _ _ h2]
      · exact upd_ne _ _ h2
  · by_cases hji : j = i
    · subst hji
      simp [upd_same]
    · simp only [upd_ne _ _ hji]
      exact h.head j hj
  · by_cases hji : j = i
    · subst hji
      simp [upd_same, h.count j hj]
    · simp only [upd_ne _ _ hji]
      exact h.count j hj
  · by_cases hji : j = i
    · subst hji
      rw [upd_same]
      exact List.nodup_cons.2 ⟨hei, h.nodup j hj⟩
    · rw [upd_ne _ _ hji]
      exact h.nodup j hj
  · by_cases hji : j = i
    · subst hji
      rw [upd_same, List.mem_cons, List.mem_cons, h.mem j hj a]
      constructor
      · rintro (rfl | ⟨h1, h2⟩)
        · exact ⟨.inl rfl, hb⟩
        · exact ⟨.inr h1, h2⟩
      · rintro ⟨rfl | h1, h2⟩
        · exact .inl rfl
        · exact .inr ⟨h1, h2⟩
    · rw [upd_ne _ _ hji, List.mem_cons, h.mem j hj a]
      constructor
      · rintro ⟨h1, h2⟩
        exact ⟨.inr h1, h2⟩
      · rintro ⟨rfl | h1, h2⟩
        · exact absurd (h2.symm.trans hb) hji
        · exact ⟨h1, h2⟩

/-- An item is taken out of its bucket's chain. -/
theorem chains_del {e i m : Nat} (h : Chains bn bp hv n r l B) (hz : 0 ∉ l) (hl : l.Nodup) (he : e ∈ l) (hi : i < n)
    (hb : toBkt (hv e) n = i) :
    Chains (if bp e ≠ 0 then upd bn (bp e) (bn e) else bn) (if bn e ≠ 0 then upd bp (bn e) (bp e) else bp) hv n
      { r with cell := upd r.cell i ⟨if (r.cell i).head = e then bn e else (r.cell i).head, (r.cell i).count - 1, m⟩ }
      (l.erase e) (upd B i ((B i).erase e)) := by
  have hz' := h.zero hz hi
  have hei : e ∈ B i := (h.mem i hi e).2 ⟨he, hb⟩
  have hnB := h.nodup i hi
  obtain ⟨k1, k2, hk⟩ := List.append_of_mem hei
  have hs := h.seg i hi
  rw [hk] at hs hnB hz'
  have hn1 : e ∉ k1 := fun h' => (List.nodup_append.1 hnB).2.2 e h' e (by simp) rfl
  have her : (B i).erase e = k1 ++ k2 := by
    rw [hk, List.erase_append_right _ hn1, List.erase_cons_head]
  obtain ⟨ep, en⟩ := seg_mid hs
  have hpB : bp e ≠ 0 → bp e ∈ B i := by
    intro h'
    rw [ep] at h' ⊢
    have h1 : k1 ≠ [] := fun e' => h' (by rw [e']; rfl)
    rw [hk]
    exact List.mem_append_left _ (lastD_mem h1)
  have hnB' : bn e ≠ 0 → bn e ∈ B i := by
    intro h'
    rw [en] at h' ⊢
    rw [hk]
    cases k2 with
    | nil => exact absurd rfl h'
    | cons y k => simp
  have hapart : ∀ j, j < n → j ≠ i → ∀ x ∈ B j, x ∉ B i := by
    intro j hj hji x hx hx'
    have h1 := ((h.mem j hj x).1 hx).2
    have h2 := ((h.mem i hi x).1 hx').2
    exact hji (h1.symm.trans h2)
  refine ⟨h.len, fun j hj => ?_, fun j hj => ?_, fun j hj => ?_, fun j hj => ?_, fun j hj a => ?_⟩
  · by_cases hji : j = i
    · subst hji
      rw [upd_same, her]
      exact nseg_unlink hs hnB hz'
    · rw [upd_ne _ _ hji]
      refine seg_congr (fun x hx => ⟨?_, ?_⟩) (h.seg j hj)
      · split
        · rename_i h1
          rw [upd_ne]
          rintro rfl
          exact hapart j hj hji _ hx (hpB h1)
        · rfl
      · split
        · rename_i h1
          rw [upd_ne]
          rintro rfl
          exact hapart j hj hji _ hx (hnB' h1)
        · rfl
  · by_cases hji : j = i
    · subst hji
      simp only [upd_same, her]
      rw [h.head j hj, hk]
      cases k1 with
      | nil => simp [en]
      | cons y k =>
        have : y ≠ e := fun e' => hn1 (by simp [e'])
        simp [this]
    · simp only [upd_ne _ _ hji]
      exact h.head j hj
  · by_cases hji : j = i
    · subst hji
      simp only [upd_same]
      rw [h.count j hj, List.length_erase_of_mem hei]
    · simp only [upd_ne _ _ hji]
      exact h.count j hj
  · by_cases hji : j = i
    · subst hji
      rw [upd_same]
      exact (h.nodup j hj).erase e
    · rw [upd_ne _ _ hji]
      exact h.nodup j hj
  · rw [hl.mem_erase_iff]
    by_cases hji : j = i
    · subst hji
      rw [upd_same, (h.nodup j hj).mem_erase_iff, h.mem j hj a, and_assoc]
    · rw [upd_ne _ _ hji, h.mem j hj a]
      constructor
      · rintro ⟨h1, h2⟩
        refine ⟨⟨?_, h1⟩, h2⟩
        rintro rfl
        exact hji (h2.symm.trans hb)
      · rintro ⟨⟨_, h1⟩, h2⟩
        exact ⟨h1, h2⟩

/-- The search in a chain. -/
theorem findIn_ok {s : St} {key : Key} {h : Nat} : ∀ {l : List Addr} {p : Addr} (fuel : Nat), l.length < fuel → 0 ∉ l →
    (∀ x ∈ l, s.live x = true) → Seg (s.link .bNext) (s.link .bPrev) p l 0 →
    findIn key h fuel (l.headD 0) s =
      .ok ((l.find? fun a => decide ((s.data a).hashv = h ∧ (s.data a).key = key)).getD 0) s := by
  intro l
  induction l with
  | nil =>
    intro p fuel hf _ _ _
    obtain ⟨f, rfl⟩ : ∃ f, fuel = f + 1 := ⟨fuel - 1, by simp at hf; omega⟩
    simp [findIn, pure_app]
  | cons x l ih =>
    intro p fuel hf hz hl hs
    obtain ⟨f, rfl⟩ : ∃ f, fuel = f + 1 := ⟨fuel - 1, by simp at hf; omega⟩
    have hx : x ≠ 0 := fun e => hz (by simp [e])
    have hlx := hl x (by simp)
    rw [List.headD_cons, findIn, if_neg hx]
    simp only [bind_app, getD_app hlx, ite_app]
    by_cases hc : (s.data x).hashv = h ∧ (s.data x).key = key
    · rw [if_pos hc]
      simp [hc, pure_app]
    · rw [if_neg hc]
      simp only [rd_app hlx]
      rw [hs.1.2, ih f (by simp at hf; omega) (fun h => hz (by simp [h])) (fun y hy => hl y (by simp [hy])) hs.2]
      rw [List.find?_cons_of_neg (by simpa using hc)]

end Verif.IpcMem
