import Verif.DjHost.Model
/-!
# Lemmas for the disjoint pool's own memory: doubly linked lists
-/
namespace Verif.DjHost

theorem bind_app {α β : Type} (m : M α) (f : α → M β) (s : St) :
    (m >>= f) s = match m s with
      | none => none
      | some (a, s) => f a s := rfl
theorem pure_app {α : Type} (a : α) (s : St) : (pure a : M α) s = some (a, s) := rfl

theorem upd_same {α : Type} (f : Addr → α) (a : Addr) (x : α) : upd f a x a = x := by simp [upd]
theorem upd_ne {α : Type} (f : Addr → α) {a b : Addr} (x : α) (h : b ≠ a) : upd f a x b = f b := by simp [upd, h]
theorem upd_upd {α : Type} (f : Addr → α) (a : Addr) (x y : α) : upd (upd f a x) a y = upd f a y := by
  funext b
  unfold upd
  split <;> rfl

/-- A slab without its links. -/
def Slab.data (c : Slab) : Slab := { c with prev := 0, next := 0 }

/-- The links of the slabs in `S` may have changed, nothing else. -/
structure Relinked (m m' : Addr → Option Slab) (S : List Addr) : Prop where
  data : ∀ a, (m' a).map Slab.data = (m a).map Slab.data
  out : ∀ a, a ∉ S → m' a = m a

theorem Relinked.refl (m : Addr → Option Slab) (S : List Addr) : Relinked m m S := ⟨fun _ => rfl, fun _ _ => rfl⟩

theorem Relinked.trans {m m' m'' : Addr → Option Slab} {S S' : List Addr} (h : Relinked m m' S) (h' : Relinked m' m'' S')
    : Relinked m m'' (S ++ S') := by
  refine ⟨fun a => by rw [h'.data, h.data], fun a ha => ?_⟩
  simp only [List.mem_append, not_or] at ha
  rw [h'.out a ha.2, h.out a ha.1]

theorem Relinked.mono {m m' : Addr → Option Slab} {S S' : List Addr} (h : Relinked m m' S) (hs : ∀ a ∈ S, a ∈ S') :
    Relinked m m' S' := ⟨h.data, fun a ha => h.out a fun h' => ha (hs a h')⟩

theorem Relinked.one {m : Addr → Option Slab} {x : Addr} {c c' : Slab} {S : List Addr} (hc : m x = some c)
    (hd : c'.data = c.data) (hx : x ∈ S) : Relinked m (upd m x (some c')) S := by
  refine ⟨fun a => ?_, fun a ha => ?_⟩
  · by_cases h : a = x
    · rw [h, upd_same, hc]; simp [hd]
    · rw [upd_ne _ _ h]
  · rw [upd_ne]
    rintro rfl
    exact ha hx

theorem Relinked.fwd {m m' : Addr → Option Slab} {S : List Addr} (h : Relinked m m' S) {x : Addr} {c : Slab}
    (hc : m x = some c) : ∃ c', m' x = some c' ∧ c'.data = c.data := by
  have := h.data x
  rw [hc] at this
  cases e : m' x with
  | none => rw [e] at this; simp at this
  | some c' =>
    rw [e] at this
    simp only [Option.map_some, Option.some.injEq] at this
    exact ⟨c', rfl, this⟩

theorem Relinked.back {m m' : Addr → Option Slab} {S : List Addr} (h : Relinked m m' S) {x : Addr} {c' : Slab}
    (hc : m' x = some c') : ∃ c, m x = some c ∧ c'.data = c.data := by
  have := h.data x
  rw [hc] at this
  cases e : m x with
  | none => rw [e] at this; simp at this
  | some c =>
    rw [e] at this
    simp only [Option.map_some, Option.some.injEq] at this
    exact ⟨c, rfl, this⟩

/-- The slabs `l` are linked in this order; the first one points back to `p`, the last one on to `n`. -/
def Seg (m : Addr → Option Slab) : Addr → List Addr → Addr → Prop
  | _, [], _ => True
  | p, x :: l, n => (∃ c, m x = some c ∧ c.prev = p ∧ c.next = l.headD n) ∧ Seg m x l n

theorem seg_congr {m m' : Addr → Option Slab} : ∀ {l : List Addr} {p n : Addr}, (∀ x ∈ l, m' x = m x) → Seg m p l n →
    Seg m' p l n := by
  intro l
  induction l with
  | nil => intro p n _ _; trivial
  | cons x l ih =>
    rintro p n hm ⟨⟨c, h1, h2⟩, h3⟩
    exact ⟨⟨c, by rw [hm x (by simp)]; exact h1, h2⟩, ih (fun y hy => hm y (by simp [hy])) h3⟩

theorem seg_append {m : Addr → Option Slab} : ∀ {l k : List Addr} {p n : Addr},
    Seg m p (l ++ k) n ↔ Seg m p l (k.headD n) ∧ Seg m (l.getLastD p) k n := by
  intro l
  induction l with
  | nil => intro k p n; simp [Seg]
  | cons x l ih =>
    intro k p n
    simp only [List.cons_append, Seg]
    rw [ih]
    have e1 : (l ++ k).headD n = l.headD (k.headD n) := by cases l <;> rfl
    have e2 : (x :: l).getLastD p = l.getLastD x := by cases l <;> rfl
    rw [e1, e2]
    exact ⟨fun ⟨a, b, c⟩ => ⟨⟨a, b⟩, c⟩, fun ⟨⟨a, b⟩, c⟩ => ⟨a, b, c⟩⟩

theorem seg_mem {m : Addr → Option Slab} : ∀ {l : List Addr} {p n : Addr}, Seg m p l n → ∀ x ∈ l, ∃ c, m x = some c := by
  intro l
  induction l with
  | nil => intro p n _ x hx; cases hx
  | cons y l ih =>
    rintro p n ⟨⟨c, h1, _⟩, h3⟩ x hx
    rcases List.mem_cons.1 hx with rfl | hx
    · exact ⟨c, h1⟩
    · exact ih h3 x hx

/-- Another element before the first one. -/
theorem seg_setPrev {m : Addr → Option Slab} {p p' n x : Addr} {l : List Addr} {c : Slab} (h : Seg m p (x :: l) n)
    (hc : m x = some c) (hx : x ∉ l) : Seg (upd m x (some { c with prev := p' })) p' (x :: l) n := by
  obtain ⟨⟨c', h1, h2, h3⟩, h4⟩ := h
  rw [hc] at h1
  cases h1
  refine ⟨⟨_, upd_same _ _ _, rfl, h3⟩, seg_congr (fun y hy => ?_) h4⟩
  rw [upd_ne]
  rintro rfl
  exact hx hy

/-- Another element after the last one. -/
theorem seg_setNext {m : Addr → Option Slab} {n n' z : Addr} {c : Slab} : ∀ {l : List Addr} {p : Addr},
    Seg m p (l ++ [z]) n → m z = some c → z ∉ l → Seg (upd m z (some { c with next := n' })) p (l ++ [z]) n' := by
  intro l p h hc hz
  rw [seg_append] at h ⊢
  obtain ⟨h1, ⟨c', h2, h3, h4⟩, _⟩ := h
  rw [hc] at h2
  cases h2
  refine ⟨seg_congr (fun y hy => ?_) h1, ⟨_, upd_same _ _ _, h3, rfl⟩, trivial⟩
  rw [upd_ne]
  rintro rfl
  exact hz hy

/-- `head` is the head of a list made by the macros, with the elements `l`. -/
structure Dl (m : Addr → Option Slab) (head : Addr) (l : List Addr) : Prop where
  head : head = l.headD 0
  seg : Seg m (l.getLastD 0) l 0
  nodup : l.Nodup
  zero : 0 ∉ l

theorem Dl.congr {m m' : Addr → Option Slab} {head : Addr} {l : List Addr} (h : Dl m head l) (hm : ∀ x ∈ l, m' x = m x) :
    Dl m' head l := ⟨h.head, seg_congr hm h.seg, h.nodup, h.zero⟩

theorem setNext_app {s : St} {a v : Addr} {c : Slab} (hc : s.slabs a = some c) :
    setNext a v s = some ((), { s with slabs := upd s.slabs a (some { c with next := v }) }) := by
  simp only [setNext, bind_app, getS, hc, setS]

theorem setPrev_app {s : St} {a v : Addr} {c : Slab} (hc : s.slabs a = some c) :
    setPrev a v s = some ((), { s with slabs := upd s.slabs a (some { c with prev := v }) }) := by
  simp only [setPrev, bind_app, getS, hc, setS]

theorem getS_app {s : St} {a : Addr} {c : Slab} (hc : s.slabs a = some c) : getS a s = some (c, s) := by
  simp only [getS, hc]

/-- `DL_PREPEND` puts an element at the front. -/
theorem dlPrepend_app {s : St} {head x : Addr} {l : List Addr} {c : Slab} (h : Dl s.slabs head l)
    (hc : s.slabs x = some c) (hx : x ∉ l) (hx0 : x ≠ 0) :
    ∃ m', dlPrepend head x s = some (x, { s with slabs := m' }) ∧ Dl m' x (x :: l) ∧ Relinked s.slabs m' (x :: l) := by
  cases l with
  | nil =>
    have hh : head = 0 := h.head
    refine ⟨upd s.slabs x (some { c with next := 0, prev := x }), ?_, ⟨rfl, ?_, by simp, by simpa using Ne.symm hx0⟩,
      Relinked.one hc rfl (by simp)⟩
    · unfold dlPrepend
      rw [bind_app, setNext_app hc]
      dsimp only
      rw [if_neg (by simp [hh]), bind_app, setPrev_app (upd_same _ _ _)]
      dsimp only
      rw [upd_upd, pure_app, hh]
    · exact ⟨⟨_, upd_same _ _ _, rfl, rfl⟩, trivial⟩
  | cons y l =>
    have hh : head = y := h.head
    subst hh
    have hxy : x ≠ head := fun e => hx (by simp [e])
    obtain ⟨⟨d, d1, d2, d3⟩, d4⟩ := h.seg
    have hyl : head ∉ l := (List.nodup_cons.1 h.nodup).1
    have hy0 : head ≠ 0 := fun e => h.zero (by simp [e])
    refine ⟨upd (upd s.slabs x (some { c with next := head, prev := d.prev })) head (some { d with prev := x }), ?_,
      ⟨rfl, ?_, ?_, ?_⟩, ?_⟩
    · unfold dlPrepend
      rw [bind_app, setNext_app hc]
      dsimp only
      rw [if_pos hy0, bind_app, getS_app (c := d) (by dsimp only; rw [upd_ne _ _ (Ne.symm hxy), d1])]
      dsimp only
      rw [bind_app, setPrev_app (upd_same _ _ _)]
      dsimp only
      rw [upd_upd, bind_app, setPrev_app (c := d) (by dsimp only; rw [upd_ne _ _ (Ne.symm hxy), d1])]
      rfl
    · refine ⟨⟨_, (by rw [upd_ne _ _ hxy, upd_same]), ?_, rfl⟩, ?_⟩
      · rw [d2]
        rfl
      · have h1 : Seg (upd s.slabs x (some { c with next := head, prev := d.prev })) ((head :: l).getLastD 0) (head :: l) 0 := by
          refine seg_congr (fun y hy => ?_) h.seg
          rw [upd_ne]
          rintro rfl
          exact hx hy
        exact seg_setPrev h1 (by rw [upd_ne _ _ (Ne.symm hxy), d1]) hyl
    · exact List.nodup_cons.2 ⟨hx, h.nodup⟩
    · intro h0
      rcases List.mem_cons.1 h0 with h0 | h0
      · exact hx0 h0.symm
      · exact h.zero h0
    · have r1 : Relinked s.slabs (upd s.slabs x (some { c with next := head, prev := d.prev })) (x :: head :: l) :=
        Relinked.one hc rfl (by simp)
      have r2 := Relinked.one (m := upd s.slabs x (some { c with next := head, prev := d.prev })) (x := head)
        (c' := { d with prev := x }) (c := d) (S := x :: head :: l) (by rw [upd_ne _ _ (Ne.symm hxy), d1]) rfl (by simp)
      exact (r1.trans r2).mono (fun a ha => by rcases List.mem_append.1 ha with h | h <;> exact h)

theorem getLastD_append {l k : List Addr} {d : Addr} : (l ++ k).getLastD d = k.getLastD (l.getLastD d) := by
  induction l generalizing d with
  | nil => rfl
  | cons x l ih =>
    have e : ∀ (l : List Addr), (x :: l).getLastD d = l.getLastD x := by intro l; cases l <;> rfl
    rw [List.cons_append, e, e, ih]

theorem getLastD_mem {l : List Addr} {d : Addr} : l.getLastD d = d ∨ l.getLastD d ∈ l := by
  cases l with
  | nil => exact Or.inl rfl
  | cons x l => exact Or.inr (List.getLast_mem _)

theorem getLastD_cons_mem {x d : Addr} {l : List Addr} : (x :: l).getLastD d ∈ x :: l := List.getLast_mem _

/-- `DL_DELETE` takes an element out. -/
theorem dlDelete_app {s : St} {head x : Addr} {l k : List Addr} (h : Dl s.slabs head (l ++ x :: k)) :
    ∃ head' m', dlDelete head x s = some (head', { s with slabs := m' }) ∧ Dl m' head' (l ++ k) ∧
      Relinked s.slabs m' (l ++ x :: k) ∧ m' x = s.slabs x := by
  have hseg := h.seg
  rw [seg_append] at hseg
  obtain ⟨g1, ⟨c, c1, c2, c3⟩, g2⟩ := hseg
  have hnd := h.nodup
  rw [List.nodup_append] at hnd
  obtain ⟨n1, n2, n3⟩ := hnd
  obtain ⟨n4, n5⟩ := List.nodup_cons.1 n2
  have hxl : x ∉ l := fun hx => n3 x hx x (by simp) rfl
  have hz : ∀ y ∈ l ++ x :: k, y ≠ 0 := fun y hy e => h.zero (e ▸ hy)
  have hx0 : x ≠ 0 := hz x (by simp)
  have hnd' : (l ++ k).Nodup := by
    rw [List.nodup_append]
    exact ⟨n1, n5, fun a ha b hb => n3 a ha b (by simp [hb])⟩
  have hz' : 0 ∉ l ++ k := by
    intro h0
    refine h.zero ?_
    rcases List.mem_append.1 h0 with h0 | h0 <;> simp [h0]
  cases l with
  | nil =>
    have hh : head = x := h.head
    subst hh
    cases k with
    | nil =>
      have hp : c.prev = head := c2
      refine ⟨0, s.slabs, ?_, ⟨rfl, trivial, by simp, by simp⟩, Relinked.refl _ _, rfl⟩
      unfold dlDelete
      rw [if_neg hx0, bind_app, getS_app c1]
      dsimp only
      rw [if_neg (by rw [hp]; exact hx0), if_pos hp]
      rfl
    | cons y k =>
      have hp : c.prev = (y :: k).getLastD head := by rw [c2]; rfl
      have hpm : c.prev ∈ y :: k := by rw [hp]; exact getLastD_cons_mem
      have hn : c.next = y := c3
      have hy0 : y ≠ 0 := hz y (by simp)
      have hyx : head ≠ y := fun e => n4 (by simp [e])
      obtain ⟨⟨d, d1, d2, d3⟩, d4⟩ := g2
      have hyk : y ∉ k := (List.nodup_cons.1 n5).1
      refine ⟨y, upd s.slabs y (some { d with prev := c.prev }), ?_, ⟨rfl, ?_, n5, ?_⟩, Relinked.one d1 rfl (by simp), ?_⟩
      · unfold dlDelete
        rw [if_neg hx0, bind_app, getS_app c1]
        dsimp only
        rw [if_neg (hz _ (by simp at hpm ⊢; exact Or.inr hpm)), if_neg (fun e => n4 (by rw [← e]; exact hpm)), if_pos rfl,
          if_neg (by rw [hn]; exact hy0), bind_app, hn, setPrev_app d1]
        rfl
      · have h1 : Seg s.slabs head (y :: k) 0 := ⟨⟨d, d1, d2, d3⟩, d4⟩
        have := seg_setPrev (p' := c.prev) h1 d1 hyk
        have e : ([] ++ y :: k).getLastD 0 = c.prev := by rw [hp]; rfl
        rw [e]
        exact this
      · simpa using hz'
      · rw [upd_ne _ _ hyx]
  | cons w l =>
    have hh : head = w := h.head
    subst hh
    have hhx : x ≠ head := fun e => hxl (by simp [e])
    have hh0 : head ≠ 0 := hz head (by simp)
    -- the element before x
    obtain ⟨l', z, hl'⟩ : ∃ l' z, head :: l = l' ++ [z] := ⟨(head :: l).dropLast, (head :: l).getLast (by simp),
      (List.dropLast_concat_getLast (by simp)).symm⟩
    have hlast : ∀ d, (head :: l).getLastD d = z := by intro d; rw [hl', getLastD_append]; rfl
    have hp : c.prev = z := by rw [c2, hlast]
    have hzm : z ∈ head :: l := by rw [hl']; simp
    have hzx : z ≠ x := fun e => hxl (by rw [← e]; exact hzm)
    have hz0 : z ≠ 0 := hz z (List.mem_append.2 (Or.inl hzm))
    obtain ⟨e, e1⟩ := seg_mem g1 z hzm
    have hzl' : z ∉ l' := by
      have := n1
      rw [hl', List.nodup_append] at this
      intro hm
      exact this.2.2 z hm z (by simp) rfl
    -- after the first write
    have s1 : ∀ n, Seg (upd s.slabs z (some { e with next := n })) (((head :: l) ++ x :: k).getLastD 0) (head :: l) n := by
      intro n
      rw [hl'] at g1 ⊢
      exact seg_setNext g1 e1 hzl'
    cases k with
    | nil =>
      have hn : c.next = 0 := c3
      obtain ⟨f, f1⟩ : ∃ f, upd s.slabs z (some { e with next := 0 }) head = some f := by
        by_cases hw : head = z
        · exact ⟨_, by rw [hw, upd_same]⟩
        · obtain ⟨f, f1⟩ := seg_mem g1 head (by simp)
          exact ⟨f, by rw [upd_ne _ _ hw, f1]⟩
      refine ⟨head, upd (upd s.slabs z (some { e with next := 0 })) head (some { f with prev := z }), ?_, ⟨rfl, ?_, hnd', hz'⟩,
        ?_, ?_⟩
      · unfold dlDelete
        rw [if_neg hh0, bind_app, getS_app c1]
        dsimp only
        rw [if_neg (by rw [hp]; exact hz0), if_neg (by rw [hp]; exact hzx), if_neg hhx, hp, hn, bind_app, setNext_app e1]
        dsimp only
        rw [if_neg (by simp), bind_app, setPrev_app f1]
        rfl
      · have := seg_setPrev (p' := z) (s1 0) f1 (List.nodup_cons.1 n1).1
        rw [List.append_nil, hlast]
        exact this
      · have r1 := Relinked.one (m := s.slabs) (x := z) (c' := { e with next := 0 }) (S := head :: l ++ [x]) e1 rfl
          (List.mem_append.2 (Or.inl hzm))
        have r2 := Relinked.one (x := head) (c' := { f with prev := z }) (S := head :: l ++ [x]) f1 rfl (by simp)
        exact (r1.trans r2).mono (fun a ha => by rcases List.mem_append.1 ha with h | h <;> exact h)
      · rw [upd_ne _ _ hhx, upd_ne _ _ (Ne.symm hzx)]
    | cons y k =>
      have hn : c.next = y := c3
      have hy0 : y ≠ 0 := hz y (by simp)
      have hyx : x ≠ y := fun e => n4 (by simp [e])
      have hyz : y ≠ z := by
        intro e
        exact n3 z hzm y (by simp) e.symm
      obtain ⟨⟨d, d1, d2, d3⟩, d4⟩ := g2
      have hyk : y ∉ k := (List.nodup_cons.1 n5).1
      have d1' : upd s.slabs z (some { e with next := y }) y = some d := by rw [upd_ne _ _ hyz, d1]
      refine ⟨head, upd (upd s.slabs z (some { e with next := y })) y (some { d with prev := z }), ?_, ⟨rfl, ?_, hnd', hz'⟩,
        ?_, ?_⟩
      · unfold dlDelete
        rw [if_neg hh0, bind_app, getS_app c1]
        dsimp only
        rw [if_neg (by rw [hp]; exact hz0), if_neg (by rw [hp]; exact hzx), if_neg hhx, hp, hn, bind_app, setNext_app e1]
        dsimp only
        rw [if_pos hy0, bind_app, setPrev_app d1']
        rfl
      · rw [seg_append]
        refine ⟨?_, ?_⟩
        · have hlast2 : ((head :: l) ++ y :: k).getLastD 0 = ((head :: l) ++ x :: y :: k).getLastD 0 := by
            rw [getLastD_append, getLastD_append]
            rfl
          rw [hlast2]
          refine seg_congr (fun a ha => ?_) (s1 y)
          rw [upd_ne]
          rintro rfl
          exact n3 a ha a (by simp) rfl
        · rw [hlast]
          have h1 : Seg (upd s.slabs z (some { e with next := y })) x (y :: k) 0 := by
            refine seg_congr (fun a ha => ?_) ⟨⟨d, d1, d2, d3⟩, d4⟩
            rw [upd_ne]
            rintro rfl
            exact n3 a hzm a (List.mem_cons_of_mem _ ha) rfl
          exact seg_setPrev h1 d1' hyk
      · have r1 := Relinked.one (m := s.slabs) (x := z) (c' := { e with next := y }) (S := head :: l ++ x :: y :: k) e1 rfl
          (List.mem_append.2 (Or.inl hzm))
        have r2 := Relinked.one (x := y) (c' := { d with prev := z }) (S := head :: l ++ x :: y :: k) d1' rfl (by simp)
        exact (r1.trans r2).mono (fun a ha => by rcases List.mem_append.1 ha with h | h <;> exact h)
      · rw [upd_ne _ _ hyx, upd_ne _ _ (Ne.symm hzx)]

end Verif.DjHost
