import Verif.Coarse.Ops3
import Verif.Coarse.Spec
/-! The books of the client agree with the state of the model, along every history. -/
set_option linter.unusedSimpArgs false
namespace Verif.Coarse
open Spec

/-- Agreement of state and books. -/
structure Rel (st : St) (live grants : List Region) : Prop where
  inv : Inv st
  live : live.Perm (usedOf st.blocks)
  total : total st.blocks = bytes grants
  grants : ∀ x, Cover st.blocks x ↔ HasAny grants x

theorem usedOf_pairwise {l : List Block} (h : SortedD l) :
    (usedOf l).Pairwise fun a b => a.1 < b.1 := by
  unfold usedOf
  rw [List.pairwise_map]
  exact List.Pairwise.filter _ h

theorem mem_usedOf {l : List Block} {r : Region} (h : r ∈ usedOf l) :
    ∃ b ∈ l, b.used = true ∧ b.data = r.1 ∧ b.size = r.2 := by
  unfold usedOf at h
  rw [List.mem_map] at h
  obtain ⟨b, hb, rfl⟩ := h
  rw [List.mem_filter] at hb
  exact ⟨b, hb.1, hb.2, rfl, rfl⟩

theorem usedOf_mem {l : List Block} {b : Block} (hb : b ∈ l) (hu : b.used = true) :
    (b.data, b.size) ∈ usedOf l := by
  unfold usedOf
  exact List.mem_map.2 ⟨b, List.mem_filter.2 ⟨hb, hu⟩, rfl⟩

theorem fresh_blocks {st : St} {live grants : List Region} {p s : Nat} (hr : Rel st live grants)
    (hf : Spec.Fresh grants (p, s)) : Fresh st.blocks p s := by
  refine ⟨hf.ptr, hf.size, hf.bound, ?_⟩
  intro b hb
  have h1 := hf.size
  have h2 := (hr.inv.core.pos b hb).1
  simp only at h1
  -- a common byte would be the larger of the two starts
  refine Classical.byContradiction fun hn => ?_
  have hx : Cover st.blocks (max b.data p) := ⟨b, hb, by omega, by omega⟩
  rw [hr.grants] at hx
  obtain ⟨g, hg, hgx⟩ := hx
  exact hf.apart g hg _ ⟨hgx, by simp only [Has]; omega⟩

theorem filter_ne_mid {A B : List Region} {p s : Nat}
    (h : (A ++ (p, s) :: B).Pairwise fun a b => a.1 < b.1) :
    (A ++ (p, s) :: B).filter (fun r => r.1 != p) = A ++ B := by
  rw [List.pairwise_append, List.pairwise_cons] at h
  obtain ⟨_, ⟨hB, _⟩, hA⟩ := h
  rw [List.filter_append, List.filter_cons]
  simp only [bne_self_eq_false, Bool.false_eq_true, if_false]
  rw [List.filter_eq_self.2, List.filter_eq_self.2]
  · intro r hr; have := hB r hr; simp only at this; simp only [bne_iff_ne]; omega
  · intro r hr; have := hA r hr (p, s) (by simp); simp only at this; simp only [bne_iff_ne]; omega

theorem perm_mid {α : Type} (A B : List α) (x : α) : (A ++ x :: B).Perm (x :: (A ++ B)) :=
  List.perm_middle

/-- Bookkeeping of a successful free. -/
theorem live_free {live A B : List Region} {l : List Block} {p s : Nat} (hs : SortedD l)
    (hl : live.Perm (usedOf l)) (hu : usedOf l = A ++ (p, s) :: B) :
    (live.filter fun r => r.1 != p).Perm (A ++ B) := by
  have h1 := hl.filter (fun r => r.1 != p)
  have hp := usedOf_pairwise hs
  rw [hu] at h1 hp
  rw [filter_ne_mid hp] at h1
  exact h1

theorem hasAny_cons (r : Region) (rs : List Region) (x : Nat) :
    HasAny (r :: rs) x ↔ Has r x ∨ HasAny rs x := by
  unfold HasAny; simp

theorem alloc_rel {cfg : Cfg} {env : Env} {st : St} {live grants : List Region} {size align k : Nat}
    (hp : cfg.page = 2 ^ k) (hr : Rel st live grants) (he : EnvOk env (.alloc size align) grants) :
    Rel (alloc cfg env st size align).1
        (liveAfter live (.alloc size align) (alloc cfg env st size align).2)
        (grantsAfter grants (alloc cfg env st size align).2) ∧
    (Mergeable env → NoAdj st.blocks → NoAdj (alloc cfg env st size align).1.blocks) ∧
    ((alloc cfg env st size align).2.res ≠ .success →
      (alloc cfg env st size align).2.got = none ∧
      (alloc cfg env st size align).1.usedSize = st.usedSize ∧
      (alloc cfg env st size align).1.allocSize = st.allocSize ∧
      usedOf (alloc cfg env st size align).1.blocks = usedOf st.blocks) := by
  have hgood : Good env size := ⟨he.free1, he.free2, he.reAdd, he.flag size align rfl⟩
  have hup : UpOk env st size := fun a p h => by
    obtain ⟨h1, h2⟩ := he.up size align a p rfl h
    exact ⟨fresh_blocks hr h1, h2⟩
  obtain ⟨hout, _, _⟩ := alloc_spec (align := align) hr.inv hp hgood hup (fun a r => he.upErr size a r)
  generalize alloc cfg env st size align = r at hout
  obtain ⟨st', o⟩ := r
  simp only at hout ⊢
  cases hout with
  | handed hres hgot h hna =>
    refine ⟨?_, fun _ h' => hna h', fun h => absurd hres h⟩
    obtain ⟨A, B, h1, h2⟩ := h.usedOf
    have hg : grantsAfter grants o = grants := by unfold grantsAfter; rw [hgot]
    have hlv : liveAfter live (.alloc size align) o = (o.ptr, size) :: live := by
      unfold liveAfter; rw [if_pos hres]
    rw [hg, hlv]
    refine ⟨h.inv hr.inv, ?_, h.tot.trans hr.total, fun x => (h.cover x).trans (hr.grants x)⟩
    rw [h2]
    refine List.Perm.trans ?_ (perm_mid A B _).symm
    have := hr.live
    rw [h1] at this
    exact this.cons _
  | grown hres hgot hi hu hc ha hus hna =>
    refine ⟨?_, fun _ h' => hna h', fun h => absurd hres h⟩
    obtain ⟨A, B, h1, h2⟩ := hu
    have hg : grantsAfter grants o = (o.ptr, size) :: grants := by unfold grantsAfter; rw [hgot]
    have hlv : liveAfter live (.alloc size align) o = (o.ptr, size) :: live := by
      unfold liveAfter; rw [if_pos hres]
    rw [hg, hlv]
    refine ⟨hi, ?_, ?tt, ?cc⟩
    · rw [h2]
      refine List.Perm.trans ?_ (perm_mid A B _).symm
      have := hr.live
      rw [h1] at this
      exact this.cons _
    case cc =>
      intro x
      rw [hc, hasAny_cons, hr.grants]
      exact Or.comm
    case tt =>
      rw [← hi.alloc, ha, hr.inv.alloc, hr.total]
      simp [bytes, Nat.add_comm]
  | failed hres hgot h hna =>
    refine ⟨?_, hna, fun _ => ⟨hgot, h.used, h.alloc, h.same.used⟩⟩
    have hg : grantsAfter grants o = grants := by unfold grantsAfter; rw [hgot]
    have hlv : liveAfter live (.alloc size align) o = live := by
      unfold liveAfter; rw [if_neg hres]
    rw [hg, hlv]
    exact ⟨h.inv hr.inv, by rw [h.same.used]; exact hr.live,
      h.same.tot.trans hr.total, fun x => (h.same.cover x).trans (hr.grants x)⟩

theorem free_rel {env : Env} {st : St} {live grants : List Region} {ptr b : Nat}
    (hr : Rel st live grants) (hh : env.host .reAdd = true) :
    Rel (free env st ptr b).1 (liveAfter live (.free ptr b) (free env st ptr b).2)
        (grantsAfter grants (free env st ptr b).2) ∧
    (Mergeable env → NoAdj st.blocks → NoAdj (free env st ptr b).1.blocks) := by
  rcases free_spec (ptr := ptr) (bytes := b) hr.inv hh with ⟨h0, h⟩ | ⟨_, h, _⟩ |
    ⟨st', A, B, s, h, h0, hby, hu, hu', hi, hc, ht, hus, hal, hna⟩
  · rw [h]
    refine ⟨?_, fun _ h => h⟩
    have hlv : liveAfter live (.free ptr b) { res := .success } = live := by
      unfold liveAfter; rw [if_pos rfl]
      simp only
      rw [List.filter_eq_self]
      intro r hrm
      obtain ⟨bl, hbl, _, hd, _⟩ := mem_usedOf (hr.live.mem_iff.1 hrm)
      have := (hr.inv.core.pos bl hbl).2.1
      simp only [bne_iff_ne]; omega
    rw [hlv]
    exact hr
  · rw [h]
    refine ⟨?_, fun _ h => h⟩
    have hlv : liveAfter live (.free ptr b) { res := .invalidArgument } = live := by
      unfold liveAfter; rw [if_neg (by simp)]
    rw [hlv]
    exact hr
  · rw [h]
    refine ⟨?_, hna⟩
    have hlv : liveAfter live (.free ptr b) { res := .success } = live.filter fun r => r.1 != ptr := by
      unfold liveAfter; rw [if_pos rfl]
    rw [hlv]
    refine ⟨hi, ?_, ht.trans hr.total, fun x => (hc x).trans (hr.grants x)⟩
    rw [hu']
    exact live_free hr.inv.core.sorted hr.live hu

theorem split_rel {env : Env} {st : St} {live grants : List Region} {ptr tot first : Nat}
    (hr : Rel st live grants) :
    Rel (split env st ptr tot first).1
        (liveAfter live (.split ptr tot first) (split env st ptr tot first).2)
        (grantsAfter grants (split env st ptr tot first).2) ∧
    (NoAdj st.blocks → NoAdj (split env st ptr tot first).1.blocks) := by
  rcases split_spec (env := env) (ptr := ptr) (tot := tot) (first := first) hr.inv with
    ⟨r, hr0, h, _⟩ | ⟨pre, post, b, h, hb, hbd, hbs, hbu, hf0, hft, hi⟩
  · rw [h]
    refine ⟨?_, id⟩
    have hlv : liveAfter live (.split ptr tot first) { res := r } = live := by
      unfold liveAfter; rw [if_neg hr0]
    rw [hlv]
    exact hr
  · rw [h]
    have hlv : liveAfter live (.split ptr tot first) { res := .success } =
        (ptr, first) :: (ptr + first, tot - first) :: live.filter fun r => r.1 != ptr := by
      unfold liveAfter; rw [if_pos rfl]
    rw [hlv]
    refine ⟨⟨hi, ?_, ?tt, ?cc⟩, ?_⟩
    · have hu : usedOf st.blocks = usedOf pre ++ (ptr, tot) :: usedOf post := by
        rw [hb]; simp [hbu, hbd, hbs]
      have h1 := live_free hr.inv.core.sorted hr.live hu
      simp only [usedOf_append, usedOf_cons, hbu, if_true, hbd, List.cons_append, List.nil_append]
      refine List.Perm.trans ?_ (perm_mid _ _ _).symm
      refine List.Perm.cons _ ?_
      refine List.Perm.trans ?_ (perm_mid _ _ _).symm
      exact h1.cons _
    case cc =>
      intro x
      show Cover _ x ↔ HasAny grants x
      rw [← hr.grants, hb]
      simp only [cover_append, cover_cons, hbd]
      constructor
      · rintro (h | h | h | h)
        · exact Or.inl h
        · exact Or.inr (Or.inl (by omega))
        · exact Or.inr (Or.inl (by omega))
        · exact Or.inr (Or.inr h)
      · rintro (h | h | h)
        · exact Or.inl h
        · by_cases hx : x < ptr + first
          · exact Or.inr (Or.inl (by omega))
          · exact Or.inr (Or.inr (Or.inl (by omega)))
        · exact Or.inr (Or.inr (Or.inr h))
    case tt =>
      show total _ = bytes grants
      rw [← hr.total, hb]
      simp only [total_append, total_cons]; omega
    · rw [hb]
      intro hno x hx y hy hxu hyu
      simp only [List.mem_append, List.mem_cons] at hx hy
      have conv : ∀ z, z.used = false → z ∈ pre ∨ z = { b with size := first } ∨
          z = ⟨ptr + first, tot - first, true, false⟩ ∨ z ∈ post → z ∈ pre ++ b :: post := by
        rintro z hz (h | rfl | rfl | h)
        · simp [h]
        · simp only at hz; rw [hbu] at hz; cases hz
        · cases hz
        · simp [h]
      exact hno x (conv x hxu hx) y (conv y hyu hy) hxu hyu

theorem filter_ne_two {A B : List Region} {p s q t : Nat}
    (h : (A ++ (p, s) :: (q, t) :: B).Pairwise fun a b => a.1 < b.1) :
    (A ++ (p, s) :: (q, t) :: B).filter (fun r => r.1 != p && r.1 != q) = A ++ B := by
  have h1 := filter_ne_mid h
  have hperm : (A ++ (q, t) :: B).Pairwise fun a b => a.1 < b.1 := by
    rw [List.pairwise_append, List.pairwise_cons] at h
    rw [List.pairwise_append]
    exact ⟨h.1, h.2.1.2, fun a ha b hb => h.2.2 a ha b (by simp [List.mem_cons.1 hb])⟩
  have h2 := filter_ne_mid hperm
  rw [← h2, ← h1, List.filter_filter]
  congr 1
  funext r
  exact Bool.and_comm _ _

theorem merge_rel {env : Env} {st : St} {live grants : List Region} {low high tot : Nat}
    (hr : Rel st live grants) :
    Rel (merge env st low high tot).1
        (liveAfter live (.merge low high tot) (merge env st low high tot).2)
        (grantsAfter grants (merge env st low high tot).2) ∧
    (NoAdj st.blocks → NoAdj (merge env st low high tot).1.blocks) := by
  rcases merge_spec (env := env) (low := low) (high := high) (tot := tot) hr.inv with
    ⟨r, hr0, h, _⟩ | ⟨pre, post, l, hh, h, hb, hld, hhd, hlu, hhu, hadj, htot, hi⟩
  · rw [h]
    refine ⟨?_, id⟩
    have hlv : liveAfter live (.merge low high tot) { res := r } = live := by
      unfold liveAfter; rw [if_neg hr0]
    rw [hlv]
    exact hr
  · rw [h]
    have hlv : liveAfter live (.merge low high tot) { res := .success } =
        (low, tot) :: live.filter fun r => r.1 != low && r.1 != high := by
      unfold liveAfter; rw [if_pos rfl]
    rw [hlv]
    refine ⟨⟨hi, ?_, ?tt, ?cc⟩, ?_⟩
    · have hu : usedOf st.blocks = usedOf pre ++ (low, l.size) :: (high, hh.size) :: usedOf post := by
        rw [hb]; simp [hlu, hld, hhu, hhd]
      have h1 := hr.live.filter (fun r => r.1 != low && r.1 != high)
      have hp := usedOf_pairwise hr.inv.core.sorted
      rw [hu] at h1 hp
      rw [filter_ne_two hp] at h1
      simp only [usedOf_append, usedOf_cons, hlu, if_true, hld, List.cons_append, List.nil_append]
      refine List.Perm.trans ?_ (perm_mid _ _ _).symm
      exact h1.cons _
    case cc =>
      intro x
      show Cover _ x ↔ HasAny grants x
      rw [← hr.grants, hb]
      simp only [cover_append, cover_cons, hld, hhd]
      constructor
      · rintro (h | h | h)
        · exact Or.inl h
        · by_cases hx : x < high
          · exact Or.inr (Or.inl (by omega))
          · exact Or.inr (Or.inr (Or.inl (by omega)))
        · exact Or.inr (Or.inr (Or.inr h))
      · rintro (h | h | h | h)
        · exact Or.inl h
        · exact Or.inr (Or.inl (by omega))
        · exact Or.inr (Or.inl (by omega))
        · exact Or.inr (Or.inr h)
    case tt =>
      show total _ = bytes grants
      rw [← hr.total, hb]
      simp only [total_append, total_cons]; omega
    · rw [hb]
      intro hno x hx y hy hxu hyu
      simp only [List.mem_append, List.mem_cons] at hx hy
      have conv : ∀ z, z.used = false → z ∈ pre ∨ z = { l with size := tot } ∨ z ∈ post →
          z ∈ pre ++ l :: hh :: post := by
        rintro z hz (h | rfl | h)
        · simp [h]
        · simp only at hz; rw [hlu] at hz; cases hz
        · simp [h]
      exact hno x (conv x hxu hx) y (conv y hyu hy) hxu hyu

/-- `coarse_add_memory_fixed` on fresh memory. -/
theorem addFixed_rel {cfg : Cfg} {env : Env} {st : St} {live grants : List Region} {addr size : Nat}
    (hr : Rel st live grants) (he : EnvOk env (.addFixed addr size) grants) :
    Rel (addFixed cfg env st addr size).1
        (liveAfter live (.addFixed addr size) (addFixed cfg env st addr size).2)
        (grantsAfter grants (addFixed cfg env st addr size).2) ∧
    (Mergeable env → NoAdj st.blocks → NoAdj (addFixed cfg env st addr size).1.blocks) ∧
    ((addFixed cfg env st addr size).2.res ≠ .success →
      (addFixed cfg env st addr size).1 = st ∧ (addFixed cfg env st addr size).2.got = none) := by
  have hlv : ∀ o, liveAfter live (.addFixed addr size) o = live := by
    intro o; unfold liveAfter; split <;> rfl
  rw [hlv]
  unfold addFixed
  by_cases h0 : addr = 0 ∨ size = 0
  · rw [if_pos h0]; exact ⟨hr, fun _ h => h, fun _ => ⟨rfl, rfl⟩⟩
  · rw [if_neg h0]
    by_cases h1 : cfg.hasAlloc = true ∨ cfg.hasFree = true
    · rw [if_pos h1]; exact ⟨hr, fun _ h => h, fun _ => ⟨rfl, rfl⟩⟩
    · rw [if_neg h1]
      cases hn : addNew env .addNew1 st.blocks addr size with
      | none => exact ⟨hr, fun _ h => h, fun _ => ⟨rfl, rfl⟩⟩
      | some bl =>
        simp only
        have hf := fresh_blocks hr (he.fixed addr size rfl (by omega) (by omega))
        obtain ⟨pre, post, hb, hb', hi⟩ := addUsed_spec hr.inv hf hn
        rw [hb']
        rcases free_spec (env := env) (ptr := addr) (bytes := size) hi he.reAdd with
          ⟨h, _⟩ | ⟨_, _, h⟩ | ⟨st', A, B, s, h, _, hby, hu, hu', hi', hc, ht, hus, hal, hna⟩
        · omega
        · exact absurd rfl (h size (by simp)).2
        · rw [h]
          have hpw := usedOf_pairwise hi.core.sorted
          have hAB : A ++ B = usedOf st.blocks := by
            rw [hu] at hpw
            have e1 := filter_ne_mid hpw
            rw [← hu] at hpw
            simp only [usedOf_append, usedOf_cons, if_true, List.cons_append, List.nil_append] at hpw hu
            have e2 := filter_ne_mid hpw
            rw [← hu, e2] at e1
            rw [← e1, hb]; simp
          refine ⟨⟨hi', ?_, ?tt, ?cc⟩, ?_, fun h => absurd rfl h⟩
          · rw [hu', hAB]; exact hr.live
          case cc =>
            intro x
            rw [hc]
            simp only [grantsAfter, hasAny_cons]
            rw [← hr.grants, hb]
            simp only [cover_append, cover_cons, Has]
            constructor
            · rintro (h | h | h)
              · exact Or.inr (Or.inl h)
              · exact Or.inl h
              · exact Or.inr (Or.inr h)
            · rintro (h | h | h)
              · exact Or.inr (Or.inl h)
              · exact Or.inl h
              · exact Or.inr (Or.inr h)
          case tt =>
            rw [ht]
            simp only [grantsAfter]
            have := hr.total
            rw [hb] at this
            simp only [bytes, List.map_cons, List.sum_cons, total_append, total_cons] at this ⊢
            omega
          · intro hall hno
            apply hna hall
            intro x hx y hy hxu hyu
            simp only [List.mem_append, List.mem_cons] at hx hy
            have conv : ∀ z, z.used = false → z ∈ pre ∨ z = ⟨addr, size, true, false⟩ ∨ z ∈ post →
                z ∈ st.blocks := by
              rintro z hz (h | rfl | h)
              · rw [hb]; simp [h]
              · cases hz
              · rw [hb]; simp [h]
            exact hno x (conv x hxu hx) y (conv y hyu hy) hxu hyu

theorem step_rel {cfg : Cfg} {env : Env} {st : St} {live grants : List Region} {op : Op} {k : Nat}
    (hp : cfg.page = 2 ^ k) (hr : Rel st live grants) (he : EnvOk env op grants) :
    Rel (step cfg env st op).1 (liveAfter live op (step cfg env st op).2)
        (grantsAfter grants (step cfg env st op).2) ∧
    (Mergeable env → NoAdj st.blocks → NoAdj (step cfg env st op).1.blocks) := by
  cases op with
  | alloc size align => obtain ⟨h1, h2, _⟩ := alloc_rel hp hr he; exact ⟨h1, h2⟩
  | free ptr b => exact free_rel hr he.reAdd
  | split ptr tot first => obtain ⟨h1, h2⟩ := split_rel (env := env) (ptr := ptr) (tot := tot) (first := first) hr
                           exact ⟨h1, fun _ => h2⟩
  | merge low high tot => obtain ⟨h1, h2⟩ := merge_rel (env := env) (low := low) (high := high) (tot := tot) hr
                          exact ⟨h1, fun _ => h2⟩
  | addFixed addr size => obtain ⟨h1, h2, _⟩ := addFixed_rel (cfg := cfg) hr he; exact ⟨h1, h2⟩

theorem init_rel : Rel init [] [] := by
  refine ⟨⟨⟨List.Pairwise.nil, by simp [init], by simp [init]⟩, by simp [init], rfl, rfl⟩,
    by simp [init], rfl, ?_⟩
  intro x; simp [init, Cover, HasAny]

theorem reach_rel {cfg : Cfg} {P : Env → Prop} {st : St} {live grants : List Region} {k : Nat}
    (hp : cfg.page = 2 ^ k) (h : Reach cfg P st live grants) : Rel st live grants := by
  induction h with
  | init => exact init_rel
  | step env op _ he _ ih => exact (step_rel hp ih he).1

theorem reach_noAdj {cfg : Cfg} {st : St} {live grants : List Region} {k : Nat}
    (hp : cfg.page = 2 ^ k) (h : Reach cfg Mergeable st live grants) : NoAdj st.blocks := by
  induction h with
  | init => intro a ha; simp [init] at ha
  | step env op hr he hm ih => exact (step_rel hp (reach_rel hp hr) he).2 hm ih

end Verif.Coarse
