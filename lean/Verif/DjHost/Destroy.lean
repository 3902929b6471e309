import Verif.DjHost.Free2
/-!
# Lemmas for the disjoint pool's own memory: buckets are destroyed
-/
namespace Verif.DjHost

/-- The slabs `X` and their memory are given back. -/
structure Rem (s s' : St) (X : List Addr) : Prop where
  pools : s'.pools = s.pools
  arrs : s'.arrs = s.arrs
  crits : s'.crits = s.crits
  lims : s'.lims = s.lims
  gone : ∀ y ∈ X, s'.slabs y = none
  keep : ∀ y, y ∉ X → s'.slabs y = s.slabs y
  pgone : ∀ y ∈ X, ∀ d, s.slabs y = some d → s'.prov d.mem = none
  pkeep : ∀ m, (∀ y ∈ X, ∀ d, s.slabs y = some d → d.mem ≠ m) → s'.prov m = s.prov m

theorem Rem.refl (s : St) : Rem s s [] :=
  ⟨rfl, rfl, rfl, rfl, by simp, fun _ _ => rfl, by simp, fun _ _ => rfl⟩

theorem Rem.trans {s s1 s2 : St} {X Y : List Addr} (h : Rem s s1 X) (h' : Rem s1 s2 Y) : Rem s s2 (X ++ Y) := by
  have hback : ∀ y d, s1.slabs y = some d → y ∉ X ∧ s.slabs y = some d := by
    intro y d hy
    have : y ∉ X := by
      intro hm
      rw [h.gone y hm] at hy
      cases hy
    rw [h.keep y this] at hy
    exact ⟨this, hy⟩
  have hp : ∀ m, s1.prov m = none → s2.prov m = none := by
    intro m hm
    by_cases e : ∃ y ∈ Y, ∃ d, s1.slabs y = some d ∧ d.mem = m
    · obtain ⟨y, hy, d, hd, rfl⟩ := e
      exact h'.pgone y hy d hd
    · rw [h'.pkeep m fun y hy d hd hm' => e ⟨y, hy, d, hd, hm'⟩]
      exact hm
  refine ⟨h'.pools.trans h.pools, h'.arrs.trans h.arrs, h'.crits.trans h.crits, h'.lims.trans h.lims, ?_, ?_, ?_, ?_⟩
  · intro y hy
    by_cases e : y ∈ Y
    · exact h'.gone y e
    · rw [h'.keep y e]
      rcases List.mem_append.1 hy with h1 | h1
      · exact h.gone y h1
      · exact absurd h1 e
  · intro y hy
    rw [List.mem_append, not_or] at hy
    rw [h'.keep y hy.2, h.keep y hy.1]
  · intro y hy d hd
    by_cases e : y ∈ X
    · exact hp _ (h.pgone y e d hd)
    · rcases List.mem_append.1 hy with h1 | h1
      · exact absurd h1 e
      · exact h'.pgone y h1 d (by rw [h.keep y e]; exact hd)
  · intro m hm
    rw [h'.pkeep m, h.pkeep m]
    · exact fun y hy d hd => hm y (List.mem_append.2 (Or.inl hy)) d hd
    · intro y hy d hd
      exact hm y (List.mem_append.2 (Or.inr hy)) d (hback y d hd).2

/-- Every slab has its own memory. -/
structure Own (s : St) : Prop where
  mem : ∀ x d, s.slabs x = some d → s.prov d.mem = some d.size
  inj : ∀ x y d d', s.slabs x = some d → s.slabs y = some d' → d.mem = d'.mem → x = y

theorem Own.rem {s s' : St} {X : List Addr} (h : Own s) (r : Rem s s' X) : Own s' := by
  have hback : ∀ y d, s'.slabs y = some d → y ∉ X ∧ s.slabs y = some d := by
    intro y d hy
    have : y ∉ X := by
      intro hm
      rw [r.gone y hm] at hy
      cases hy
    rw [r.keep y this] at hy
    exact ⟨this, hy⟩
  refine ⟨?_, ?_⟩
  · intro x d hx
    obtain ⟨h1, h2⟩ := hback x d hx
    rw [r.pkeep d.mem]
    · exact h.mem x d h2
    · intro y hy d' hd' e
      have := h.inj y x d' d hd' h2 e
      subst this
      exact h1 hy
  · intro x y d d' hx hy
    exact h.inj x y d d' (hback x d hx).2 (hback y d' hy).2

theorem rem_slab {s : St} (h : Own s) {x : Addr} {d : Slab} (hx : s.slabs x = some d) {bs : Addr → Option Bucket} :
    Rem s { s with bucks := bs, prov := upd s.prov d.mem none, slabs := upd s.slabs x none } [x] := by
  refine ⟨rfl, rfl, rfl, rfl, ?_, ?_, ?_, ?_⟩
  · intro y hy
    have : y = x := by simpa using hy
    rw [this]
    exact upd_same _ _ _
  · intro y hy
    exact upd_ne _ _ (by simpa using hy)
  · intro y hy d' hd'
    have : y = x := by simpa using hy
    subst this
    rw [hx] at hd'
    cases hd'
    exact upd_same _ _ _
  · intro m hm
    exact upd_ne _ _ (Ne.symm (hm x (by simp) d hx))

theorem destroyAvail_ok {b : Addr} : ∀ (la : List Addr) {s : St} {prev : Addr} {c : Bucket} {P : Pool},
    Own s → s.bucks b = some c → s.pools c.pool = some P → Seg s.slabs prev la 0 → la.Nodup → 0 ∉ la →
    c.avail = la.headD 0 → (∀ x ∈ la, ∃ d, s.slabs x = some d ∧ d.bucket = b) →
    ∃ s', (∀ fuel, la.length < fuel → destroyAvail fuel b c.avail s = some ((), s')) ∧ Rem s s' la ∧ s'.bucks = upd s.bucks b (some { c with avail := 0 }) := by
  intro la
  induction la with
  | nil =>
    intro s prev c P hO hb hP hseg hnd h0 hav hS
    have hav : c.avail = 0 := hav
    refine ⟨s, ?_, Rem.refl s, ?_⟩
    · intro fuel hf
      cases fuel with
      | zero => simp at hf
      | succ fuel =>
      unfold destroyAvail
      rw [if_pos hav]
      rfl
    · have : ({ c with avail := 0 } : Bucket) = c := by cases c; simp_all
      rw [this, ← hb, upd_self]
  | cons x la ih =>
    intro s prev c P hO hb hP hseg hnd h0 hav hS
    have hav : c.avail = x := hav
    obtain ⟨⟨d, d1, d2, d3⟩, d4⟩ := hseg
    obtain ⟨d', d5, d6⟩ := hS x (by simp)
    rw [d1] at d5
    cases d5
    have hx0 : x ≠ 0 := fun e => h0 (by simp [e])
    have hxl : x ∉ la := (List.nodup_cons.1 hnd).1
    let s1 : St := { s with bucks := upd s.bucks b (some { c with avail := d.next }), prov := upd s.prov d.mem none,
                            slabs := upd s.slabs x none }
    have r1 : Rem s s1 [x] := rem_slab hO d1
    obtain ⟨s', e1, e2, e3⟩ := ih (s := s1) (prev := x) (c := { c with avail := d.next }) (P := P) (hO.rem r1)
      (upd_same _ _ _) hP (seg_congr (fun y hy => upd_ne _ _ (by rintro rfl; exact hxl hy)) d4) (List.nodup_cons.1 hnd).2
      (fun h => h0 (by simp [h])) d3 (fun y hy => by
        obtain ⟨f, f1, f2⟩ := hS y (by simp [hy])
        exact ⟨f, by show upd _ _ _ _ = _; rw [upd_ne _ _ (by rintro rfl; exact hxl hy)]; exact f1, f2⟩)
    refine ⟨s', ?_, r1.trans e2, ?_⟩
    · intro fuel hf
      cases fuel with
      | zero => simp at hf
      | succ fuel =>
      unfold destroyAvail
      rw [if_neg (by rw [hav]; exact hx0), hav, bind_app, getS_app d1]
      dsimp only
      rw [bind_app, getB_app hb]
      dsimp only
      have hll : llDelete fuel c.avail x s = some (d.next, s) := by
        unfold llDelete
        rw [if_pos hav, bind_app, hav, getS_app d1]
        rfl
      rw [bind_app, hll]
      dsimp only
      rw [bind_app, setB_app hb]
      dsimp only
      rw [bind_app, destroySlab_app (s := { s with bucks := upd s.bucks b (some { c with avail := d.next }) }) (d := d)
        (c := { c with avail := d.next }) (P := P) d1 (by rw [d6]; exact upd_same _ _ _) hP (hO.mem x d d1)]
      exact e1 fuel (by simp at hf; omega)
    · rw [e3]
      exact upd_upd _ _ _ _

theorem destroyUnavail_ok {b : Addr} : ∀ (la : List Addr) {s : St} {prev : Addr} {c : Bucket} {P : Pool},
    Own s → s.bucks b = some c → s.pools c.pool = some P → Seg s.slabs prev la 0 → la.Nodup → 0 ∉ la →
    c.unavail = la.headD 0 → (∀ x ∈ la, ∃ d, s.slabs x = some d ∧ d.bucket = b) →
    ∃ s', (∀ fuel, la.length < fuel → destroyUnavail fuel b c.unavail s = some ((), s')) ∧ Rem s s' la ∧
      s'.bucks = upd s.bucks b (some { c with unavail := 0 }) := by
  intro la
  induction la with
  | nil =>
    intro s prev c P hO hb hP hseg hnd h0 hav hS
    have hav : c.unavail = 0 := hav
    refine ⟨s, ?_, Rem.refl s, ?_⟩
    · intro fuel hf
      cases fuel with
      | zero => simp at hf
      | succ fuel =>
      unfold destroyUnavail
      rw [if_pos hav]
      rfl
    · have : ({ c with unavail := 0 } : Bucket) = c := by cases c; simp_all
      rw [this, ← hb, upd_self]
  | cons x la ih =>
    intro s prev c P hO hb hP hseg hnd h0 hav hS
    have hav : c.unavail = x := hav
    obtain ⟨⟨d, d1, d2, d3⟩, d4⟩ := hseg
    obtain ⟨d', d5, d6⟩ := hS x (by simp)
    rw [d1] at d5
    cases d5
    have hx0 : x ≠ 0 := fun e => h0 (by simp [e])
    have hxl : x ∉ la := (List.nodup_cons.1 hnd).1
    let s1 : St := { s with bucks := upd s.bucks b (some { c with unavail := d.next }), prov := upd s.prov d.mem none,
                            slabs := upd s.slabs x none }
    have r1 : Rem s s1 [x] := rem_slab hO d1
    obtain ⟨s', e1, e2, e3⟩ := ih (s := s1) (prev := x) (c := { c with unavail := d.next }) (P := P) (hO.rem r1)
      (upd_same _ _ _) hP (seg_congr (fun y hy => upd_ne _ _ (by rintro rfl; exact hxl hy)) d4) (List.nodup_cons.1 hnd).2
      (fun h => h0 (by simp [h])) d3 (fun y hy => by
        obtain ⟨f, f1, f2⟩ := hS y (by simp [hy])
        exact ⟨f, by show upd _ _ _ _ = _; rw [upd_ne _ _ (by rintro rfl; exact hxl hy)]; exact f1, f2⟩)
    refine ⟨s', ?_, r1.trans e2, ?_⟩
    · intro fuel hf
      cases fuel with
      | zero => simp at hf
      | succ fuel =>
      unfold destroyUnavail
      rw [if_neg (by rw [hav]; exact hx0), hav, bind_app, getS_app d1]
      dsimp only
      rw [bind_app, getB_app hb]
      dsimp only
      have hll : llDelete fuel c.unavail x s = some (d.next, s) := by
        unfold llDelete
        rw [if_pos hav, bind_app, hav, getS_app d1]
        rfl
      rw [bind_app, hll]
      dsimp only
      rw [bind_app, setB_app hb]
      dsimp only
      rw [bind_app, destroySlab_app (s := { s with bucks := upd s.bucks b (some { c with unavail := d.next }) }) (d := d)
        (c := { c with unavail := d.next }) (P := P) d1 (by rw [d6]; exact upd_same _ _ _) hP (hO.mem x d d1)]
      exact e1 fuel (by simp at hf; omega)
    · rw [e3]
      exact upd_upd _ _ _ _

theorem freeBucket_app {s : St} {a : Addr} {c : Bucket} (hc : s.bucks a = some c) :
    freeBucket a s = some ((), { s with bucks := upd s.bucks a none }) := by
  simp only [freeBucket, hc]

/-- A bucket that can be destroyed. -/
def Ready (s : St) (b : Addr) : Prop :=
  ∃ c P la lu e, s.bucks b = some c ∧ s.pools c.pool = some P ∧ BInv s.slabs b c la lu e

theorem destroyBucket_ok {s : St} {b : Addr} (hO : Own s) (h : Ready s b) :
    ∃ n s' X, (∀ fuel, n ≤ fuel → destroyBucket fuel b s = some ((), s')) ∧ Rem s s' X ∧ s'.bucks = upd s.bucks b none ∧
      ∀ x, x ∈ X ↔ ∃ d, s.slabs x = some d ∧ d.bucket = b := by
  obtain ⟨c, P, la, lu, e, hb, hP, hl⟩ := h
  have hX : ∀ x, x ∈ la ++ lu ↔ ∃ d, s.slabs x = some d ∧ d.bucket = b := by
    intro x
    rw [List.mem_append]
    constructor
    · rintro (h1 | h1)
      · obtain ⟨d, d1, d2, _⟩ := hl.avs x h1
        exact ⟨d, d1, d2⟩
      · obtain ⟨d, d1, d2, _⟩ := hl.uns x h1
        exact ⟨d, d1, d2⟩
    · rintro ⟨d, d1, d2⟩
      exact hl.all x d d1 d2
  obtain ⟨s1, e1, e2, e3⟩ := destroyAvail_ok la hO hb hP hl.av.seg hl.av.nodup hl.av.zero hl.av.head
    (fun x hx => by
      obtain ⟨d, d1, d2, _⟩ := hl.avs x hx
      exact ⟨d, d1, d2⟩)
  have hb1 : s1.bucks b = some { c with avail := 0 } := by rw [e3, upd_same]
  have hlu : ∀ x ∈ lu, s1.slabs x = s.slabs x := fun x hx => e2.keep x fun h1 => hl.disj h1 hx
  obtain ⟨s2, f1, f2, f3⟩ := destroyUnavail_ok lu (s := s1) (c := { c with avail := 0 }) (hO.rem e2) hb1
    (by rw [e2.pools]; exact hP) (seg_congr hlu hl.un.seg) hl.un.nodup hl.un.zero hl.un.head
    (fun x hx => by
      obtain ⟨d, d1, d2, _⟩ := hl.uns x hx
      exact ⟨d, by rw [hlu x hx]; exact d1, d2⟩)
  have hb2 : s2.bucks b = some { c with avail := 0, unavail := 0 } := by rw [f3, upd_same]
  have r := e2.trans f2
  refine ⟨la.length + lu.length + 1, { s2 with bucks := upd s2.bucks b none }, la ++ lu, ?_,
    ⟨r.pools, r.arrs, r.crits, r.lims, r.gone, r.keep, r.pgone, r.pkeep⟩, ?_, hX⟩
  · intro fuel hf
    unfold destroyBucket
    rw [bind_app, getB_app hb]
    dsimp only
    rw [bind_app, e1 fuel (by omega)]
    dsimp only
    rw [bind_app, getB_app hb1]
    dsimp only
    rw [bind_app, f1 fuel (by omega)]
    dsimp only
    rw [freeBucket_app hb2]
  · dsimp only
    rw [f3, upd_upd, e3, upd_upd]

theorem Ready.rem {s s' : St} {b b' : Addr} {X : List Addr} (h : Ready s b) (r : Rem s s' X) (hbk : s'.bucks b = s.bucks b)
    (hX : ∀ x ∈ X, ∃ d, s.slabs x = some d ∧ d.bucket = b') (hne : b ≠ b') : Ready s' b := by
  obtain ⟨c, P, la, lu, e, hb, hP, hl⟩ := h
  refine ⟨c, P, la, lu, e, by rw [hbk]; exact hb, by rw [r.pools]; exact hP, binv_other hl ?_ ?_⟩
  · intro x d hx hd
    rw [r.keep x]
    · exact hx
    · intro hm
      obtain ⟨d', h1, h2⟩ := hX x hm
      rw [hx] at h1
      cases h1
      exact hne (hd.symm.trans h2)
  · intro x d hx hd
    by_cases hm : x ∈ X
    · rw [r.gone x hm] at hx
      cases hx
    · rw [r.keep x hm] at hx
      exact hx

/-- The loop of `disjoint_pool_finalize`. -/
theorem finalLoop_ok {arr : Addr} {L : List Addr} : ∀ (k i : Nat) {s : St}, s.arrs arr = some (L.map some) →
    i + k = L.length → Own s → (L.drop i).Nodup → (∀ b ∈ L.drop i, Ready s b) →
    ∃ n s' X, (∀ fuel, n ≤ fuel → finalLoop fuel arr k i s = some ((), s')) ∧ Rem s s' X ∧
      (∀ b ∈ L.drop i, s'.bucks b = none) ∧ (∀ b, b ∉ L.drop i → s'.bucks b = s.bucks b) ∧
      ∀ x, x ∈ X ↔ ∃ d, s.slabs x = some d ∧ d.bucket ∈ L.drop i := by
  intro k
  induction k with
  | zero =>
    intro i s harr hik hO hnd hR
    have : L.drop i = [] := List.drop_eq_nil_of_le (by omega)
    rw [this]
    exact ⟨0, s, [], fun _ _ => rfl, Rem.refl s, by simp, fun _ _ => rfl, by simp⟩
  | succ k ih =>
    intro i s harr hik hO hnd hR
    have hi : i < L.length := by omega
    have hdrop : L.drop i = L[i] :: L.drop (i + 1) := List.drop_eq_getElem_cons hi
    rw [hdrop] at hnd hR ⊢
    obtain ⟨n1, n2⟩ := List.nodup_cons.1 hnd
    obtain ⟨na, s1, X, e1, e2, e3, e4⟩ := destroyBucket_ok hO (hR L[i] List.mem_cons_self)
    obtain ⟨nb, s2, Y, f1, f2, f3, f4, f5⟩ := ih (i + 1) (s := s1) (by rw [e2.arrs]; exact harr) (by omega) (hO.rem e2) n2
      (fun b hb => by
        have hne : b ≠ L[i] := by rintro rfl; exact n1 hb
        exact (hR b (List.mem_cons_of_mem _ hb)).rem e2 (by rw [e3, upd_ne _ _ hne]) (fun x hx => (e4 x).1 hx) hne)
    refine ⟨max na nb, s2, X ++ Y, ?_, e2.trans f2, ?_, ?_, ?_⟩
    · intro fuel hf
      unfold finalLoop
      rw [bind_app, getArr_app (b := L[i]) harr (by simp [hi])]
      dsimp only
      rw [bind_app, e1 fuel (by omega)]
      exact f1 fuel (by omega)
    · intro b hb
      rcases List.mem_cons.1 hb with rfl | hb
      · rw [f4 _ n1, e3, upd_same]
      · exact f3 b hb
    · intro b hb
      rw [List.mem_cons, not_or] at hb
      rw [f4 b hb.2, e3, upd_ne _ _ hb.1]
    · intro x
      rw [List.mem_append]
      constructor
      · rintro (h1 | h1)
        · obtain ⟨d, d1, d2⟩ := (e4 x).1 h1
          exact ⟨d, d1, by rw [d2]; exact List.mem_cons_self⟩
        · obtain ⟨d, d1, d2⟩ := (f5 x).1 h1
          have : x ∉ X := by
            intro hm
            rw [e2.gone x hm] at d1
            cases d1
          rw [e2.keep x this] at d1
          exact ⟨d, d1, List.mem_cons_of_mem _ d2⟩
      · rintro ⟨d, d1, d2⟩
        by_cases hm : x ∈ X
        · exact Or.inl hm
        · right
          rw [f5]
          refine ⟨d, by rw [e2.keep x hm]; exact d1, ?_⟩
          rcases List.mem_cons.1 d2 with d2 | d2
          · exact absurd ((e4 x).2 ⟨d, d1, d2⟩) hm
          · exact d2

theorem statsLoop_ok {arr : Addr} {L : List Addr} {s : St} (harr : s.arrs arr = some (L.map some))
    (hL : ∀ b ∈ L, ∃ c, s.bucks b = some c) : ∀ (k i : Nat), i + k = L.length → statsLoop arr k i s = some ((), s) := by
  intro k
  induction k with
  | zero => intro i _; rfl
  | succ k ih =>
    intro i hik
    have hi : i < L.length := by omega
    obtain ⟨c, hc⟩ := hL L[i] (List.getElem_mem hi)
    unfold statsLoop
    rw [bind_app, getArr_app (b := L[i]) harr (by simp [hi])]
    dsimp only
    rw [bind_app, getB_app hc]
    exact ih (i + 1) (by omega)

end Verif.DjHost
