import Verif.IpcMem.Model
/-!
# Lemmas for the cache of opened IPC handles: linked lists
-/
namespace Verif.IpcMem

theorem upd_same {α : Type} (f : Addr → α) (a : Addr) (x : α) : upd f a x a = x := by simp [upd]
theorem upd_ne {α : Type} (f : Addr → α) {a b : Addr} (x : α) (h : b ≠ a) : upd f a x b = f b := by simp [upd, h]
theorem upd_upd {α : Type} (f : Addr → α) (a : Addr) (x y : α) : upd (upd f a x) a y = upd f a y := by
  funext b
  unfold upd
  split <;> rfl

theorem updL_same (f : Fld → Addr → Addr) (k : Fld) (a v : Addr) : updL f k a v k = upd (f k) a v := by
  funext b
  simp [updL, upd]
theorem updL_ne (f : Fld → Addr → Addr) {k k' : Fld} (a v : Addr) (h : k' ≠ k) : updL f k a v k' = f k' := by
  funext b
  simp [updL, h]

/-- The elements `l` are linked in this order; the first one points back to `p`, the last one on to `n`. -/
def Seg (nx pv : Addr → Addr) : Addr → List Addr → Addr → Prop
  | _, [], _ => True
  | p, x :: l, n => (pv x = p ∧ nx x = l.headD n) ∧ Seg nx pv x l n

variable {nx pv nx' pv' : Addr → Addr}

theorem seg_congr : ∀ {l : List Addr} {p n : Addr}, (∀ x ∈ l, nx' x = nx x ∧ pv' x = pv x) → Seg nx pv p l n →
    Seg nx' pv' p l n := by
  intro l
  induction l with
  | nil => intro p n _ _; trivial
  | cons x l ih =>
    rintro p n hm ⟨⟨h1, h2⟩, h3⟩
    have := hm x (by simp)
    exact ⟨⟨by rw [this.2, h1], by rw [this.1, h2]⟩, ih (fun y hy => hm y (by simp [hy])) h3⟩

theorem seg_append : ∀ {l k : List Addr} {p n : Addr},
    Seg nx pv p (l ++ k) n ↔ Seg nx pv p l (k.headD n) ∧ Seg nx pv (l.getLastD p) k n := by
  intro l
  induction l with
  | nil => intro k p n; simp [Seg]
  | cons x l ih =>
    intro k p n
    simp only [List.cons_append, Seg]
    rw [ih]
    have e1 : (l ++ k).headD n = l.headD (k.headD n) := by cases l <;> rfl
    have e2 : (x :: l).getLastD p = l.getLastD x := by cases l <;> rfl
    rw [e1, e2]
    exact ⟨fun ⟨a, b, c⟩ => ⟨⟨a, b⟩, c⟩, fun ⟨⟨a, b⟩, c⟩ => ⟨a, b, c⟩⟩

theorem headD_ne_zero {l : List Addr} (hz : 0 ∉ l) : l.headD 0 ≠ 0 ↔ l ≠ [] := by
  cases l with
  | nil => simp
  | cons x l => simp at hz; simp [Ne.symm hz.1]

theorem lastD_mem : ∀ {l : List Addr} {p : Addr}, l ≠ [] → l.getLastD p ∈ l := by
  intro l p h
  rcases List.eq_nil_or_concat l with rfl | ⟨k, z, rfl⟩
  · exact absurd rfl h
  · simp

theorem lastD_ne_zero {l : List Addr} (hz : 0 ∉ l) : l.getLastD 0 ≠ 0 ↔ l ≠ [] := by
  constructor
  · rintro h rfl
    exact h rfl
  · intro h e
    exact hz (e ▸ lastD_mem h)

/-- Another element before the first one. -/
theorem seg_setPrev {p p' n x : Addr} {l : List Addr} (h : Seg nx pv p (x :: l) n) (hx : x ∉ l) :
    Seg nx (upd pv x p') p' (x :: l) n := by
  obtain ⟨⟨h1, h2⟩, h3⟩ := h
  refine ⟨⟨upd_same _ _ _, h2⟩, seg_congr (fun y hy => ⟨rfl, ?_⟩) h3⟩
  rw [upd_ne]
  rintro rfl
  exact hx hy

/-- Another element after the last one. -/
theorem seg_setNext {p n n' z : Addr} {l : List Addr} (h : Seg nx pv p (l ++ [z]) n) (hz : z ∉ l) :
    Seg (upd nx z n') pv p (l ++ [z]) n' := by
  rw [seg_append] at h ⊢
  obtain ⟨h1, ⟨h2, h3⟩, _⟩ := h
  refine ⟨seg_congr (fun y hy => ⟨?_, rfl⟩) h1, ⟨h2, upd_same _ _ _⟩, trivial⟩
  rw [upd_ne]
  rintro rfl
  exact hz hy

/-- An element in the middle has its neighbours as pointers. -/
theorem seg_mid {p n x : Addr} {l k : List Addr} (h : Seg nx pv p (l ++ x :: k) n) :
    pv x = l.getLastD p ∧ nx x = k.headD n := by
  rw [seg_append] at h
  exact h.2.1

/-- The element before the segment and the one after it change. -/
theorem seg_ends {p p' n n' : Addr} {l : List Addr} (h : Seg nx pv p l n) (hn : l.Nodup) (h0 : l ≠ []) :
    Seg (upd nx (l.getLastD 0) n') (upd pv (l.headD 0) p') p' l n' := by
  rcases List.eq_nil_or_concat l with rfl | ⟨k, z, rfl⟩
  · exact absurd rfl h0
  · rw [List.concat_eq_append] at *
    have e : (k ++ [z]).getLastD 0 = z := by simp
    have hz : z ∉ k := fun hz => (List.nodup_append.1 hn).2.2 z hz z (by simp) rfl
    rw [e]
    have h1 := seg_setNext (n' := n') h hz
    cases hk : k ++ [z] with
    | nil => simp at hk
    | cons x m =>
      rw [hk] at h1 hn
      exact seg_setPrev h1 (List.nodup_cons.1 hn).1

/-! ## Lists that end with `NULL` on both sides -/

theorem nseg_unlink {x : Addr} {l k : List Addr} (h : Seg nx pv 0 (l ++ x :: k) 0) (hn : (l ++ x :: k).Nodup)
    (hz : 0 ∉ l ++ x :: k) :
    Seg (if pv x ≠ 0 then upd nx (pv x) (nx x) else nx) (if nx x ≠ 0 then upd pv (nx x) (pv x) else pv) 0 (l ++ k) 0 := by
  obtain ⟨ep, en⟩ := seg_mid h
  rw [ep, en]
  rw [seg_append] at h
  have hx : x ∉ k := by
    have := (List.nodup_append.1 hn).2.1
    exact (List.nodup_cons.1 this).1
  have hlk : ∀ y ∈ l, y ∉ k := fun y hy hk => (List.nodup_append.1 hn).2.2 y hy y (by simp [hk]) rfl
  have hzl : 0 ∉ l := fun h' => hz (by simp [h'])
  have hzk : 0 ∉ k := fun h' => hz (by simp [h'])
  obtain ⟨h1, h2⟩ := h
  have h3 : Seg nx pv x k 0 := h2.2
  rw [seg_append]
  by_cases hl : l = []
  · subst hl
    refine ⟨trivial, ?_⟩
    simp only [List.getLastD_nil, ne_eq, not_true, if_false]
    cases k with
    | nil => trivial
    | cons y k =>
      have : y ≠ 0 := fun e => hzk (by simp [e])
      simp only [List.headD_cons, this, ne_eq, not_false_iff, if_true]
      exact seg_setPrev h3 (List.nodup_cons.1 (List.nodup_cons.1 hn).2).1
  · have hl0 := (lastD_ne_zero hzl).2 hl
    rw [if_pos hl0]
    obtain ⟨l', z, rfl⟩ : ∃ l' z, l = l' ++ [z] := by
      rcases List.eq_nil_or_concat l with h' | ⟨k', z, h'⟩
      · exact absurd h' hl
      · exact ⟨k', z, by rw [h', List.concat_eq_append]⟩
    have e : (l' ++ [z]).getLastD 0 = z := by simp
    rw [e]
    have hzl' : z ∉ l' := fun hz' => (List.nodup_append.1 (List.nodup_append.1 hn).1).2.2 z hz' z (by simp) rfl
    refine ⟨?_, ?_⟩
    · refine seg_congr (fun y hy => ⟨rfl, ?_⟩) (seg_setNext h1 hzl')
      split
      · rename_i hk
        rw [upd_ne]
        rintro rfl
        have : k ≠ [] := (headD_ne_zero hzk).1 hk
        cases k with
        | nil => exact this rfl
        | cons y k => exact hlk y hy (by simp)
      · rfl
    · cases k with
      | nil => trivial
      | cons y k =>
        have : y ≠ 0 := fun e => hzk (by simp [e])
        simp only [List.headD_cons, this, ne_eq, not_false_iff, if_true]
        refine seg_congr (fun w hw => ⟨?_, rfl⟩) (seg_setPrev h3 ?_)
        · rw [upd_ne]
          rintro rfl
          exact hlk w (by simp) hw
        · have := (List.nodup_append.1 hn).2.1
          exact (List.nodup_cons.1 (List.nodup_cons.1 this).2).1

theorem nseg_front {e : Addr} {l : List Addr} (h : Seg nx pv 0 l 0) (hn : l.Nodup) (hz : 0 ∉ l) (he : e ∉ l) :
    Seg (upd nx e (l.headD 0)) (if l.headD 0 ≠ 0 then upd (upd pv e 0) (l.headD 0) e else upd pv e 0) 0 (e :: l) 0 := by
  cases l with
  | nil => exact ⟨⟨by simp [upd_same], by simp [upd_same]⟩, trivial⟩
  | cons y l =>
    have : y ≠ 0 := fun e => hz (by simp [e])
    simp only [List.headD_cons, this, ne_eq, not_false_iff, if_true]
    have hye : y ≠ e := fun h' => he (by simp [h'])
    refine ⟨⟨?_, by simp [upd_same]⟩, ?_⟩
    · rw [upd_ne _ _ (Ne.symm hye), upd_same]
    · refine seg_setPrev (p := 0) (seg_congr (fun w hw => ?_) h) (List.nodup_cons.1 hn).1
      have : w ≠ e := fun h' => he (h' ▸ hw)
      exact ⟨upd_ne _ _ this, upd_ne _ _ this⟩

theorem nseg_back {e : Addr} {l : List Addr} (h : Seg nx pv 0 l 0) (hn : l.Nodup) (he : e ∉ l) (h0 : l ≠ []) :
    Seg (upd (upd nx e 0) (l.getLastD 0) e) (upd pv e (l.getLastD 0)) 0 (l ++ [e]) 0 := by
  have hle : l.getLastD 0 ≠ e := fun h' => he (h' ▸ lastD_mem h0)
  rw [seg_append]
  refine ⟨?_, ⟨upd_same _ _ _, ?_⟩, trivial⟩
  · rcases List.eq_nil_or_concat l with rfl | ⟨k, z, rfl⟩
    · exact absurd rfl h0
    · rw [List.concat_eq_append] at *
      have e1 : (k ++ [z]).getLastD 0 = z := by simp
      rw [e1]
      refine seg_setNext (n := 0) (seg_congr (fun y hy => ?_) h) ?_
      · have : y ≠ e := fun h' => he (h' ▸ hy)
        exact ⟨upd_ne _ _ this, upd_ne _ _ this⟩
      · exact fun hz => (List.nodup_append.1 hn).2.2 z hz z (by simp) rfl
  · rw [upd_ne _ _ (Ne.symm hle), upd_same]
    rfl

/-! ## Lists whose first element points back to the last one -/

/-- `head` is the head of a list made by the macros of `utlist.h`, with the elements `l`. -/
structure Dl (nx pv : Addr → Addr) (head : Addr) (l : List Addr) : Prop where
  head : head = l.headD 0
  seg : Seg nx pv (l.getLastD 0) l 0
  nodup : l.Nodup
  zero : 0 ∉ l

theorem Dl.congr {head : Addr} {l : List Addr} (h : Dl nx pv head l) (hm : ∀ x ∈ l, nx' x = nx x ∧ pv' x = pv x) :
    Dl nx' pv' head l := ⟨h.head, seg_congr hm h.seg, h.nodup, h.zero⟩

theorem dl_prepend {head e : Addr} {l : List Addr} (h : Dl nx pv head l) (he : e ∉ l) (h0 : e ≠ 0) :
    Dl (upd nx e head) (if head ≠ 0 then upd (upd pv e (pv head)) head e else upd pv e e) e (e :: l) := by
  have hz : 0 ∉ e :: l := by
    simp only [List.mem_cons, not_or]
    exact ⟨Ne.symm h0, h.zero⟩
  refine ⟨rfl, ?_, List.nodup_cons.2 ⟨he, h.nodup⟩, hz⟩
  have hh := h.head
  have hs := h.seg
  cases l with
  | nil =>
    simp only [List.headD_nil] at hh
    subst hh
    exact ⟨⟨by simp [upd_same], by simp [upd_same]⟩, trivial⟩
  | cons y l =>
    simp only [List.headD_cons] at hh
    subst hh
    have hy0 : head ≠ 0 := fun e => h.zero (by simp [e])
    rw [if_pos hy0]
    have hye : head ≠ e := fun h' => he (by simp [h'])
    refine ⟨⟨?_, by simp [upd_same]⟩, ?_⟩
    · rw [upd_ne _ _ (Ne.symm hye), upd_same, hs.1.1]
      have e1 : (e :: head :: l).getLastD 0 = l.getLastD head := by cases l <;> rfl
      have e2 : (head :: l).getLastD 0 = l.getLastD head := by cases l <;> rfl
      rw [e1, e2]
    · refine seg_setPrev (p := (head :: l).getLastD 0) (seg_congr (fun w hw => ?_) hs) (List.nodup_cons.1 h.nodup).1
      have : w ≠ e := fun h' => he (h' ▸ hw)
      exact ⟨upd_ne _ _ this, upd_ne _ _ this⟩

theorem getLastD_append_cons (l : List Addr) (x p : Addr) (k : List Addr) : (l ++ x :: k).getLastD p = k.getLastD x := by
  induction l generalizing p with
  | nil => cases k <;> rfl
  | cons y l ih =>
    have : ((y :: l) ++ x :: k).getLastD p = (l ++ x :: k).getLastD y := by
      rw [List.cons_append]
      cases l <;> rfl
    rw [this, ih]

/-- The first element is taken out, another one follows. -/
theorem dl_delete_head {x y : Addr} {k : List Addr} (h : Dl nx pv x (x :: y :: k)) :
    Dl nx (upd pv y (pv x)) y (y :: k) := by
  have hs := h.seg
  have hn := List.nodup_cons.1 h.nodup
  refine ⟨rfl, ?_, hn.2, fun h' => h.zero (by simp only [List.mem_cons] at h' ⊢; exact .inr h')⟩
  rw [hs.1.1]
  have e1 : (x :: y :: k).getLastD 0 = (y :: k).getLastD 0 := rfl
  rw [e1]
  exact seg_setPrev hs.2 (List.nodup_cons.1 hn.2).1

/-- Another element is taken out. -/
theorem dl_delete_mid {head x : Addr} {l k : List Addr} (h : Dl nx pv head (l ++ x :: k)) (hl : l ≠ []) :
    Dl (upd nx (pv x) (nx x)) (if nx x ≠ 0 then upd pv (nx x) (pv x) else upd pv head (pv x)) head (l ++ k) := by
  have hs := h.seg
  obtain ⟨ep, en⟩ := seg_mid hs
  have hlast : l.getLastD ((l ++ x :: k).getLastD 0) = l.getLastD 0 := by
    cases l with
    | nil => exact absurd rfl hl
    | cons a l => cases l <;> rfl
  rw [hlast] at ep
  have hn := h.nodup
  have hx : x ∉ k := (List.nodup_cons.1 (List.nodup_append.1 hn).2.1).1
  have hlk : ∀ y ∈ l, y ∉ k := fun y hy hk => (List.nodup_append.1 hn).2.2 y hy y (by simp [hk]) rfl
  have hzl : 0 ∉ l := fun h' => h.zero (by simp [h'])
  have hzk : 0 ∉ k := fun h' => h.zero (by simp [h'])
  have hnl : l.Nodup := (List.nodup_append.1 hn).1
  have hnk : k.Nodup := (List.nodup_cons.1 (List.nodup_append.1 hn).2.1).2
  have hhead : head = l.headD 0 := by
    rw [h.head]
    cases l with
    | nil => exact absurd rfl hl
    | cons a l => rfl
  rw [ep, en]
  rw [seg_append] at hs
  obtain ⟨h1, h2⟩ := hs
  have h3 : Seg nx pv x k 0 := h2.2
  refine ⟨?_, ?_, ?_, ?_⟩
  · rw [hhead]
    cases l with
    | nil => exact absurd rfl hl
    | cons a l => rfl
  · rw [seg_append]
    cases k with
    | nil =>
      simp only [List.headD_nil, ne_eq, not_true, if_false, List.append_nil]
      refine ⟨?_, trivial⟩
      rw [hhead]
      exact seg_ends h1 hnl hl
    | cons y k =>
      have hy0 : y ≠ 0 := fun e => hzk (by simp [e])
      have hyl : y ∉ l := fun h' => hlk y h' (by simp)
      simp only [List.headD_cons, hy0, ne_eq, not_false_iff, if_true]
      have e1 : (l ++ y :: k).getLastD 0 = (l ++ x :: y :: k).getLastD 0 := by
        rw [getLastD_append_cons, getLastD_append_cons]
        cases k <;> rfl
      have e2 : l.getLastD ((l ++ y :: k).getLastD 0) = l.getLastD 0 := by
        cases l with
        | nil => exact absurd rfl hl
        | cons a l => cases l <;> rfl
      rw [e2]
      refine ⟨?_, ?_⟩
      · rw [e1]
        rcases List.eq_nil_or_concat l with h' | ⟨l', z, h'⟩
        · exact absurd h' hl
        · rw [List.concat_eq_append] at h'
          subst h'
          have e : (l' ++ [z]).getLastD 0 = z := by simp
          rw [e]
          have hz' : z ∉ l' := fun hz => (List.nodup_append.1 hnl).2.2 z hz z (by simp) rfl
          refine seg_congr (fun w hw => ⟨rfl, ?_⟩) (seg_setNext h1 hz')
          rw [upd_ne]
          rintro rfl
          exact hyl hw
      · refine seg_congr (fun w hw => ⟨?_, rfl⟩) (seg_setPrev h3 (List.nodup_cons.1 hnk).1)
        rw [upd_ne]
        rintro rfl
        exact hlk _ (lastD_mem hl) hw
  · exact List.nodup_append.2 ⟨hnl, hnk, fun a ha b hb e => hlk a ha (e ▸ hb)⟩
  · simp only [List.mem_append, not_or]
    exact ⟨hzl, hzk⟩

end Verif.IpcMem
