import Verif.Os.AllocLemmas
/-! # The invariant of a provider with a file -/
namespace Verif.Os

/-- A live allocation with the file offset of its first byte. -/
structure G where
  a : Nat
  s : Nat
  o : Nat

def G.live (g : G) : Nat × Nat := (g.a, g.s)

/-- Two allocations have disjoint pages and disjoint file ranges. -/
def Apart (P : Nat) (g h : G) : Prop :=
  (g.a + roundUp P g.s ≤ h.a ∨ h.a + roundUp P h.s ≤ g.a) ∧ (g.o + g.s ≤ h.o ∨ h.o + h.s ≤ g.o)

theorem Apart.symm {P : Nat} {g h : G} (x : Apart P g h) : Apart P h g := by
  obtain ⟨h1, h2⟩ := x
  exact ⟨h1.symm, h2.symm⟩

structure Ok (c : Cfg) (st : St) (g : G) : Prop where
  pos : 0 < g.s
  page : c.P ∣ g.a
  addr : 0 < g.a
  top : g.a + roundUp c.P g.s ≤ 2 ^ 63
  file : FileRange st.mem g.a (roundUp c.P g.s) g.o
  fits : g.o + g.s ≤ st.sizeFd
  entry : ∀ v, mapGet st.offMap g.a = some v → v = g.o + 1

structure Inv (c : Cfg) (st : St) (L : List G) : Prop where
  ok : ∀ g ∈ L, Ok c st g
  apart : L.Pairwise (Apart c.P)
  keys : ∀ e ∈ st.offMap, ∃ g ∈ L, g.a = e.1
  size : st.sizeFd < W

theorem Inv.perm {c : Cfg} {st : St} {L M : List G} (h : Inv c st L) (hp : L.Perm M) :
    Inv c st M :=
  ⟨fun g hg => h.ok g (hp.mem_iff.2 hg), (hp.pairwise_iff fun x => x.symm).1 h.apart,
    fun e he => by obtain ⟨g, hg, e⟩ := h.keys e he; exact ⟨g, hp.mem_iff.1 hg, e⟩, h.size⟩

theorem perm_pick {L : List G} {x : Nat × Nat} {l : List (Nat × Nat)}
    (h : (L.map G.live).Perm (x :: l)) :
    ∃ g M, L.Perm (g :: M) ∧ g.live = x ∧ (M.map G.live).Perm l := by
  have hx : x ∈ L.map G.live := h.mem_iff.2 List.mem_cons_self
  obtain ⟨g, hg, rfl⟩ := List.mem_map.1 hx
  obtain ⟨l1, l2, rfl⟩ := List.append_of_mem hg
  refine ⟨g, l1 ++ l2, List.perm_middle, rfl, ?_⟩
  have h2 : (G.live g :: (l1 ++ l2).map G.live).Perm (G.live g :: l) := by
    have h3 : ((l1 ++ g :: l2).map G.live).Perm ((g :: (l1 ++ l2)).map G.live) :=
      List.perm_middle.map _
    exact h3.symm.trans h
  exact h2.cons_inv

theorem mapGet_some {m : List (Nat × Nat)} {k v : Nat} (h : mapGet m k = some v) : (k, v) ∈ m := by
  unfold mapGet at h
  rw [Option.map_eq_some_iff] at h
  obtain ⟨e, h1, rfl⟩ := h
  have h2 := List.find?_some h1
  have h3 := List.mem_of_find?_eq_some h1
  simp only [beq_iff_eq] at h2
  rw [← h2]
  exact h3

theorem mapGet_cons (m : List (Nat × Nat)) (k v x : Nat) :
    mapGet ((k, v) :: m) x = if k = x then some v else mapGet m x := by
  unfold mapGet
  by_cases h : k = x
  · subst h; simp
  · rw [if_neg h, List.find?_cons_of_neg (by simpa using h)]

theorem mapGet_remove (m : List (Nat × Nat)) (k x : Nat) :
    mapGet (mapRemove m k) x = if x = k then none else mapGet m x := by
  unfold mapGet mapRemove
  induction m with
  | nil => simp
  | cons e m ih =>
    by_cases h1 : e.1 = k
    · rw [List.filter_cons_of_neg (by simpa using h1), ih]
      split
      · rfl
      · rename_i hx
        rw [List.find?_cons_of_neg (by simp; omega)]
    · rw [List.filter_cons_of_pos (by simpa using h1)]
      by_cases h2 : e.1 = x
      · subst h2
        rw [if_neg h1]; simp
      · rw [List.find?_cons_of_neg (by simpa using h2), ih, List.find?_cons_of_neg (by simpa using h2)]

theorem file_eq {mem : Nat → Cell} {a s o p : Nat} (hs : 0 < s) (h1 : FileRange mem a s o)
    (h2 : FileRange mem a s p) : o = p := by
  have e1 := h1 0 hs
  have e2 := h2 0 hs
  have := Cell.file.inj (e1.symm.trans e2); omega

theorem extLen_le {c : Cfg} {size al : Nat} (h : size + al < W) : extLen c size al ≤ size + al := by
  unfold extLen
  split
  · rw [Nat.mod_eq_of_lt h]
  · omega

/-- More file space does no harm. -/
theorem Inv.grow {c : Cfg} {st st' : St} {L : List G} (h : Inv c st L) (hm : st'.mem = st.mem)
    (ho : st'.offMap = st.offMap) (h1 : st.sizeFd ≤ st'.sizeFd) (h2 : st'.sizeFd < W) :
    Inv c st' L := by
  refine ⟨fun g hg => ?_, h.apart, by rw [ho]; exact h.keys, h2⟩
  obtain ⟨g1, g2, g3, g4, g5, g6, g7⟩ := h.ok g hg
  exact ⟨g1, g2, g3, g4, by rw [hm]; exact g5, by omega, by rw [ho]; exact g7⟩

theorem alloc_inv {c : Cfg} (hP : 0 < c.P) (hfd : c.fd = true) {st : St} {L : List G}
    (hI : Inv c st L) {size al : Nat} {env : Env} (hk : EnvOk c st.mem env) (h0 : 0 < size)
    (hw : st.sizeFd + size + al < 2 ^ 64)
    (hcut : c.P < al → ∀ len off a, env.addr len off = some a → al ∣ a) {st' : St} {p : Nat}
    (h : alloc c st size al env = (st', some p)) :
    ∃ o, Inv c st' (⟨p, size, o⟩ :: L) := by
  have hW : W = 2 ^ 64 := rfl
  obtain ⟨a1, a2, a3, a4, a5, a6, cut, a7, a8, a9, a10⟩ := alloc_ok hP hk (by omega) h
  obtain ⟨b1, b2, b3⟩ := a6 hfd
  have hc0 : cut = 0 := by
    rcases a7 with h | h
    · exact a8 (hcut h)
    · exact h
  subst hc0
  have hext := @extLen_le c size al (by omega)
  rw [Nat.mod_eq_of_lt (by omega)] at b2
  have hrp := @roundUp_le c.P size hP
  simp only [hfd, if_true] at a10
  have hsep : ∀ g ∈ L, p + roundUp c.P size ≤ g.a ∨ g.a + roundUp c.P g.s ≤ p := by
    intro g hg
    have ho := hI.ok g hg
    by_contra hn
    have hrg := @roundUp_le c.P g.s hP
    have := ho.pos
    by_cases hx : g.a ≤ p
    · have h1 := ho.file (p - g.a) (by omega)
      rw [show g.a + (p - g.a) = p by omega, a5 p (Nat.le_refl _) (by omega)] at h1
      cases h1
    · have h1 := ho.file 0 (by omega)
      rw [Nat.add_zero, a5 g.a (by omega) (by omega)] at h1
      cases h1
  have hnk : ¬ st.offMap.any (fun e => e.1 == p) = true := by
    intro hn
    rw [List.any_eq_true] at hn
    obtain ⟨e, he, h1⟩ := hn
    obtain ⟨g, hg, h2⟩ := hI.keys e he
    have h3 : e.1 = p := by simpa using h1
    have h4 := hsep g hg
    have := (hI.ok g hg).pos
    have hrg := @roundUp_le c.P g.s hP
    omega
  have hmap : ∀ x, x ≠ p → mapGet st'.offMap x = mapGet st.offMap x := by
    intro x hx
    rw [b3]
    unfold mapInsert
    split
    · rfl
    · rw [mapGet_cons, if_neg (fun h => hx h.symm)]
  refine ⟨st.sizeFd, ⟨?_, ?_, ?_, by omega⟩⟩
  · intro g hg
    rcases List.mem_cons.1 hg with rfl | hg
    · refine ⟨h0, a1, a2, a3, ?_, by simp only; omega, ?_⟩
      · intro i hi
        rw [a10, if_pos ⟨by simp only; omega, by simp only at hi ⊢; omega⟩]
        congr 1
        simp only
        omega
      · intro v hv
        simp only at hv ⊢
        rw [b3] at hv
        unfold mapInsert at hv
        split at hv
        · exfalso
          apply hnk
          rw [List.any_eq_true]
          exact ⟨_, mapGet_some hv, by simp⟩
        · rw [mapGet_cons, if_pos rfl] at hv
          cases hv; rfl
    · obtain ⟨g1, g2, g3, g4, g5, g6, g7⟩ := hI.ok g hg
      have hs := hsep g hg
      have hrg := @roundUp_le c.P g.s hP
      refine ⟨g1, g2, g3, g4, ?_, by omega, ?_⟩
      · intro i hi
        rw [a10, if_neg (by omega)]
        exact g5 i hi
      · intro v hv
        rw [hmap _ (by omega)] at hv
        exact g7 v hv
  · refine List.Pairwise.cons ?_ hI.apart
    intro g hg
    have := (hI.ok g hg).fits
    exact ⟨hsep g hg, Or.inr this⟩
  · intro e he
    rw [b3] at he
    unfold mapInsert at he
    split at he
    · obtain ⟨g, hg, h1⟩ := hI.keys e he
      exact ⟨g, List.mem_cons_of_mem _ hg, h1⟩
    · rcases List.mem_cons.1 he with rfl | he
      · exact ⟨_, List.mem_cons_self, rfl⟩
      · obtain ⟨g, hg, h1⟩ := hI.keys e he
        exact ⟨g, List.mem_cons_of_mem _ hg, h1⟩

theorem free_inv {c : Cfg} (hfd : c.fd = true) {st : St} {L : List G} {g : G}
    (hI : Inv c st (g :: L)) {st' : St} {r : Bool} (h : free c st g.a g.s = (st', r)) :
    Inv c st' L ∧ r = true := by
  obtain ⟨g1, g2, g3, g4, g5, g6, g7⟩ := hI.ok g List.mem_cons_self
  unfold free at h
  rw [if_neg (by omega)] at h
  simp only [hfd, if_true] at h
  cases h
  have hap := (List.pairwise_cons.1 hI.apart)
  have hcond : g.a % c.P = 0 ∧ g.s ≠ 0 ∧ g.a + roundUp c.P g.s ≤ W :=
    ⟨Nat.mod_eq_zero_of_dvd g2, by omega, by unfold W; omega⟩
  refine ⟨⟨?_, hap.2, ?_, hI.size⟩, ?_⟩
  · intro k hk
    obtain ⟨k1, k2, k3, k4, k5, k6, k7⟩ := hI.ok k (List.mem_cons_of_mem _ hk)
    have hd := (hap.1 k hk).1
    refine ⟨k1, k2, k3, k4, ?_, k6, ?_⟩
    · intro i hi
      simp only
      unfold unmapped
      rw [if_pos hcond, if_neg (by omega)]
      exact k5 i hi
    · intro v hv
      rw [mapGet_remove] at hv
      split at hv
      · cases hv
      · exact k7 v hv
  · intro e he
    unfold mapRemove at he
    obtain ⟨he, hne⟩ := List.mem_filter.1 he
    obtain ⟨k, hk, h1⟩ := hI.keys e he
    rcases List.mem_cons.1 hk with rfl | hk
    · exfalso; simp [h1] at hne
    · exact ⟨k, hk, h1⟩
  · unfold unmapOk
    simp [hcond]

theorem split_inv {c : Cfg} (hP : 0 < c.P) (hfd : c.fd = true) {st : St} {L : List G} {g : G}
    (hI : Inv c st (g :: L)) {first : Nat} (h0 : 0 < first) (h1 : first < g.s) (hd : c.P ∣ first)
    {host : Bool} {st' : St} (h : split c st g.a first host = (st', true)) :
    Inv c st' (⟨g.a, first, g.o⟩ :: ⟨g.a + first, g.s - first, g.o + first⟩ :: L) := by
  obtain ⟨g1, g2, g3, g4, g5, g6, g7⟩ := hI.ok g List.mem_cons_self
  have hap := (List.pairwise_cons.1 hI.apart)
  have hW : W = 2 ^ 64 := rfl
  have hsz := hI.size
  have hrg := @roundUp_le c.P g.s hP
  have hsum : first + roundUp c.P (g.s - first) = roundUp c.P g.s := by
    rw [← roundUp_add hP hd]; congr 1; omega
  have hrf := roundUp_dvd hP hd
  have hr2 := @roundUp_le c.P (g.s - first) hP
  unfold split at h
  simp only [hfd] at h
  rw [if_neg (by simp)] at h
  cases hv : mapGet st.offMap g.a with
  | none => rw [hv] at h; cases h
  | some v =>
    rw [hv] at h
    simp only at h
    have hveq := g7 v hv
    subst hveq
    split at h
    · cases h
    · cases h
      rename_i hnew
      rw [Nat.mod_eq_of_lt (by omega), Nat.mod_eq_of_lt (by omega)]
      have hn : ∀ k ∈ L, k.a ≠ g.a + first := by
        intro k hk e
        have := (hap.1 k hk).1
        have := (hI.ok k (List.mem_cons_of_mem _ hk)).pos
        have := @roundUp_le c.P k.s hP
        omega
      refine ⟨?_, ?_, ?_, hsz⟩
      · intro k hk
        rcases List.mem_cons.1 hk with rfl | hk
        · refine ⟨h0, g2, g3, by simp only; omega, ?_, by simp only; omega, ?_⟩
          · intro i hi; exact g5 i (by simp only at hi; omega)
          · intro w hw
            simp only at hw ⊢
            rw [mapGet_cons, if_neg (by omega)] at hw
            exact g7 w hw
        rcases List.mem_cons.1 hk with rfl | hk
        · refine ⟨by simp only; omega, Nat.dvd_add g2 hd, by simp only; omega, by simp only; omega, ?_,
            by simp only; omega, ?_⟩
          · intro i hi
            simp only at hi ⊢
            have := g5 (first + i) (by omega)
            rw [show g.a + first + i = g.a + (first + i) by omega, this]
            congr 1
            omega
          · intro w hw
            simp only at hw ⊢
            rw [mapGet_cons, if_pos rfl] at hw
            cases hw
            omega
        · obtain ⟨k1, k2, k3, k4, k5, k6, k7⟩ := hI.ok k (List.mem_cons_of_mem _ hk)
          refine ⟨k1, k2, k3, k4, k5, k6, ?_⟩
          intro w hw
          simp only at hw
          rw [mapGet_cons, if_neg (fun e => hn k hk e.symm)] at hw
          exact k7 w hw
      · refine List.Pairwise.cons ?_ (List.Pairwise.cons ?_ hap.2)
        · intro k hk
          rcases List.mem_cons.1 hk with rfl | hk
          · exact ⟨Or.inl (by simp only; omega), Or.inl (by simp only; omega)⟩
          · obtain ⟨x1, x2⟩ := hap.1 k hk
            unfold Apart
            simp only
            constructor <;> omega
        · intro k hk
          obtain ⟨x1, x2⟩ := hap.1 k hk
          unfold Apart
          simp only
          constructor <;> omega
      · intro e he
        simp only at he
        rcases List.mem_cons.1 he with rfl | he
        · exact ⟨⟨g.a + first, g.s - first, g.o + first⟩, by simp, rfl⟩
        · obtain ⟨k, hk, e1⟩ := hI.keys e he
          rcases List.mem_cons.1 hk with rfl | hk
          · exact ⟨_, List.mem_cons_self, e1⟩
          · exact ⟨k, List.mem_cons_of_mem _ (List.mem_cons_of_mem _ hk), e1⟩

theorem merge_inv {c : Cfg} (hP : 0 < c.P) (hfd : c.fd = true) {st : St} {L : List G} {g k : G}
    (hI : Inv c st (g :: k :: L)) (hq : k.a = g.a + g.s) {o : Nat}
    (hf1 : FileRange st.mem g.a g.s o) (hf2 : FileRange st.mem k.a k.s (o + g.s))
    {st' : St} (h : merge c st k.a = (st', true)) :
    Inv c st' (⟨g.a, g.s + k.s, g.o⟩ :: L) := by
  obtain ⟨g1, g2, g3, g4, g5, g6, g7⟩ := hI.ok g List.mem_cons_self
  obtain ⟨k1, k2, k3, k4, k5, k6, k7⟩ := hI.ok k (List.mem_cons_of_mem _ List.mem_cons_self)
  have hap := (List.pairwise_cons.1 hI.apart)
  have hap2 := (List.pairwise_cons.1 hap.2)
  have hrg := @roundUp_le c.P g.s hP
  have hrk := @roundUp_le c.P k.s hP
  have hd : c.P ∣ g.s := by
    have : c.P ∣ g.a + g.s := hq ▸ k2
    exact (Nat.dvd_add_right g2).1 this
  have hsum : roundUp c.P (g.s + k.s) = g.s + roundUp c.P k.s := roundUp_add hP hd
  have hrgs := roundUp_dvd hP hd
  have ho : o = g.o := by
    have e1 := g5 0 (by omega)
    have e2 := hf1 0 (by omega)
    have := Cell.file.inj (e1.symm.trans e2); omega
  have ho2 : k.o = g.o + g.s := by
    have e1 := k5 0 (by omega)
    have e2 := hf2 0 (by omega)
    have := Cell.file.inj (e1.symm.trans e2); omega
  unfold merge at h
  simp only [hfd] at h
  rw [if_neg (by simp)] at h
  cases hv : mapGet st.offMap k.a with
  | none => rw [hv] at h; cases h
  | some v =>
    rw [hv] at h
    cases h
    refine ⟨?_, ?_, ?_, hI.size⟩
    · intro m hm
      rcases List.mem_cons.1 hm with rfl | hm
      · refine ⟨by simp only; omega, g2, g3, by simp only; rw [hsum]; omega, ?_, by simp only; omega, ?_⟩
        · intro i hi
          simp only at hi ⊢
          rw [hsum] at hi
          by_cases hl : i < g.s
          · exact g5 i (by omega)
          · have := k5 (i - g.s) (by omega)
            rw [show g.a + i = k.a + (i - g.s) by omega, this]
            congr 1
            omega
        · intro w hw
          simp only at hw ⊢
          rw [mapGet_remove, if_neg (by omega)] at hw
          exact g7 w hw
      · obtain ⟨m1, m2, m3, m4, m5, m6, m7⟩ := hI.ok m (by simp [hm])
        refine ⟨m1, m2, m3, m4, m5, m6, ?_⟩
        intro w hw
        simp only at hw
        rw [mapGet_remove] at hw
        split at hw
        · cases hw
        · exact m7 w hw
    · refine List.Pairwise.cons ?_ hap2.2
      intro m hm
      obtain ⟨x1, x2⟩ := hap.1 m (List.mem_cons_of_mem _ hm)
      obtain ⟨y1, y2⟩ := hap2.1 m hm
      have hm0 := (hI.ok m (by simp [hm])).pos
      have hrm := @roundUp_le c.P m.s hP
      unfold Apart
      simp only
      rw [hsum]
      constructor <;> omega
    · intro e he
      simp only at he
      unfold mapRemove at he
      obtain ⟨he, hne⟩ := List.mem_filter.1 he
      obtain ⟨m, hm, e1⟩ := hI.keys e he
      rcases List.mem_cons.1 hm with rfl | hm
      · exact ⟨_, List.mem_cons_self, e1⟩
      rcases List.mem_cons.1 hm with rfl | hm
      · exfalso; simp [e1] at hne
      · exact ⟨m, List.mem_cons_of_mem _ hm, e1⟩

theorem reach_inv {c : Cfg} (hP : 0 < c.P) (hfd : c.fd = true) {st : St} {live : List (Nat × Nat)}
    (h : Reach c st live) : ∃ L : List G, (L.map G.live).Perm live ∧ Inv c st L := by
  induction h with
  | init hm =>
    exact ⟨[], List.Perm.refl _, ⟨by simp, List.Pairwise.nil, by simp [initSt], by simp [initSt, W]⟩⟩
  | alloc h hk h0 hw hcut ha ih =>
    obtain ⟨L, hL, hI⟩ := ih
    obtain ⟨o, hI'⟩ := alloc_inv hP hfd hI hk h0 hw hcut ha
    exact ⟨_, by simpa [G.live] using hL, hI'⟩
  | @allocFail st live size al env st' h hk h0 hw ha ih =>
    obtain ⟨L, hL, hI⟩ := ih
    have hW : W = 2 ^ 64 := rfl
    obtain ⟨a1, a2, a3⟩ := alloc_none hP hk (by omega) ha
    refine ⟨L, hL, hI.grow a1 a2 ?_ ?_⟩
    · rcases a3 with h | h
      · omega
      · have := @extLen_le c size al (by omega)
        rw [h, Nat.mod_eq_of_lt (by omega)]
        omega
    · rcases a3 with h | h
      · rw [h]; exact hI.size
      · rw [h]; exact Nat.mod_lt _ (by decide)
  | free h hf ih =>
    obtain ⟨L, hL, hI⟩ := ih
    obtain ⟨g, M, h1, h2, h3⟩ := perm_pick (hL.trans List.perm_middle)
    rw [← h2] at hf
    exact ⟨M, h3, (free_inv hfd (hI.perm h1) hf).1⟩
  | split h h0 h1 hd hs ih =>
    obtain ⟨L, hL, hI⟩ := ih
    obtain ⟨g, M, p1, p2, p3⟩ := perm_pick (hL.trans List.perm_middle)
    cases p2
    refine ⟨_, ?_, split_inv hP hfd (hI.perm p1) h0 h1 hd hs⟩
    simp only [List.map_cons]
    refine List.Perm.trans ?_ List.perm_middle.symm
    refine List.Perm.cons _ ?_
    exact List.Perm.trans (p3.cons _) List.perm_middle.symm
  | splitFail h hs ih =>
    obtain ⟨L, hL, hI⟩ := ih
    refine ⟨L, hL, ?_⟩
    unfold split at hs
    simp only [hfd] at hs
    rw [if_neg (by simp)] at hs
    split at hs
    · cases hs; exact hI
    · split at hs
      · cases hs; exact hI
      · cases hs
  | merge h hq hf1 hf2 hm ih =>
    obtain ⟨L, hL, hI⟩ := ih
    obtain ⟨g, M, p1, p2, p3⟩ := perm_pick (hL.trans List.perm_middle)
    obtain ⟨k, N, q1, q2, q3⟩ := perm_pick (p3.trans List.perm_middle)
    cases p2
    cases q2
    have hI' := (hI.perm p1).perm (q1.cons g)
    refine ⟨_, ?_, merge_inv hP hfd hI' hq hf1 hf2 hm⟩
    simp only [List.map_cons]
    exact List.Perm.trans (q3.cons _) List.perm_middle.symm
  | perm h hp ih =>
    obtain ⟨L, hL, hI⟩ := ih
    exact ⟨L, hL.trans hp, hI⟩

end Verif.Os
