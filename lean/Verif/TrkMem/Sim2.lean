import Verif.TrkMem.Sim
/-! # Splitting and merging in memory -/
namespace Verif.TrkMem
open Tracker (Res word upSplit upMerge UpAlloc Entry)

variable {s : St}

theorem setLevel_setLevel (st : Tracker.St) (l : Nat) (a b : List Entry) :
    Tracker.setLevel (Tracker.setLevel st l a) l b = Tracker.setLevel st l b := by
  unfold Tracker.setLevel
  congr 1
  funext i
  dsimp only
  split <;> rfl

theorem setLevel_self (st : Tracker.St) (l : Nat) : Tracker.setLevel st l (st.lv l) = st := by
  cases st
  unfold Tracker.setLevel
  congr 1
  funext i
  dsimp only
  split
  · rename_i h
    rw [h]
  · rfl

/-- Putting the old entry back. -/
theorem upsert_back {h : Addr → Info} {l : List (Nat × Addr)} {k : Nat} {v x : Addr} (hv : (k, v) ∈ l)
    (hu : ∀ a, (k, a) ∈ l → a = v) :
    Tracker.upsert (Tracker.upsert (l.map (ent h)) (ent h (k, x))) (ent h (k, v)) = l.map (ent h) := by
  have h1 : Tracker.hasKey (l.map (ent h)) k = true := by
    rw [hasKey_view]
    exact hasKey_mem hv
  have e1 : (ent h (k, x)).key = k := rfl
  have e2 : (ent h (k, v)).key = k := rfl
  have h2 : Tracker.hasKey ((l.map (ent h)).map fun f => if f.key = k then ent h (k, x) else f) k = true := by
    rw [Tracker.hasKey, List.any_eq_true]
    exact ⟨ent h (k, x), List.mem_map.2 ⟨ent h (k, v), List.mem_map.2 ⟨_, hv, rfl⟩, if_pos e2⟩, by simp [e1]⟩
  unfold Tracker.upsert
  rw [e1, e2, if_pos h1, if_pos h2, List.map_map, List.map_map]
  apply List.map_congr_left
  intro e he
  dsimp only [Function.comp_def]
  have e3 : (ent h e).key = e.1 := rfl
  by_cases hk : e.1 = k
  · rw [e3, if_pos hk, if_pos e1]
    have : e = (k, v) := by
      have := hu e.2 (by rw [← hk]; exact he)
      rw [← this, ← hk]
    rw [this]
  · rw [e3, if_neg hk, e3, if_neg hk]

theorem split_sim (h : Inv s []) (pool ptr total first : Nat) (up : Option Nat) (v : Ans) (hg : Honest v.give)
    (hg2 : Honest v.give2) (hl : v.leaf = true) (hl3 : v.leaf3 = true) :
    ∃ s' r, trackingSplit s pool ptr total first up v = some (s', r) ∧ Inv s' [] ∧
      ((v.lock = false ∧ view s' = view s ∧ r.2 = false ∧ r.1 ≠ .success) ∨
        ∃ host1 host2, Tracker.trackingSplit (view s) pool ptr total first up host1 host2 = (view s', r) ∧
          ((∀ u, (v.give u).isSome = true) → host1 = true) ∧
          ((∀ u, (v.give2 u).isSome = true) → v.node2 = true → host2 = true)) := by
  unfold trackingSplit
  cases hx : v.give s.used with
  | none =>
    refine ⟨s, _, rfl, h, .inr ⟨false, true, by simp [Tracker.trackingSplit], fun h1 => ?_, fun _ _ => rfl⟩⟩
    have := h1 s.used
    rw [hx] at this
    cases this
  | some x =>
    obtain ⟨h1, h2⟩ := h.take (hg _ _ hx) ⟨pool, first, 0⟩
    have hxi : (newBlk s x ⟨pool, first, 0⟩).heap x = ⟨pool, first, 0⟩ := upd_eq _ _ _
    dsimp only
    generalize newBlk s x ⟨pool, first, 0⟩ = s1 at h1 h2 hxi ⊢
    cases hlk : v.lock with
    | false =>
      rw [if_pos rfl]
      obtain ⟨s', h3, h4, h5, _⟩ := bail_sim h1 .unknown false
      exact ⟨s', _, h3, h4, .inl ⟨rfl, by rw [h5, h2], rfl, by simp⟩⟩
    | true =>
      rw [if_neg (by simp)]
      rw [← h2]
      have bail : ∀ (r : Res), Tracker.trackingSplit (view s1) pool ptr total first up true true = (view s1, r, false) →
          ∃ s' r', bail s1 x r false = some (s', r') ∧ Inv s' [] ∧
          ((true = false ∧ view s' = view s1 ∧ r'.2 = false ∧ r'.1 ≠ .success) ∨
            ∃ host1 host2, Tracker.trackingSplit (view s1) pool ptr total first up host1 host2 = (view s', r') ∧
              ((∀ u, (v.give u).isSome = true) → host1 = true) ∧
              ((∀ u, (v.give2 u).isSome = true) → v.node2 = true → host2 = true)) := by
        intro r hr
        obtain ⟨s', h3, h4, h5, _⟩ := bail_sim h1 r false
        exact ⟨s', _, h3, h4, .inr ⟨true, true, by rw [hr, h5], fun _ => rfl, fun _ _ => rfl⟩⟩
      rcases mostNested_sim h1 ptr true with ⟨h3, h4⟩ | ⟨lv, p, a, q, h3, hlt, h4, h5, _, _, h7, h8⟩
      · rw [h3]
        refine bail _ ?_
        unfold Tracker.trackingSplit
        rw [h4]
        rfl
      · rw [h3]
        dsimp only
        have hm := h7 (h8 rfl)
        rw [h1.load hm]
        dsimp only
        have hsz : (ent s1.heap (ptr, a)).size = (s1.heap a).size := rfl
        by_cases h9 : (s1.heap a).size ≠ total
        · rw [if_pos h9]
          refine bail _ ?_
          unfold Tracker.trackingSplit
          rw [h4]
          dsimp only
          rw [hsz, if_pos h9]
          rfl
        · rw [if_neg h9]
          cases hup : upSplit total first up with
          | success =>
            dsimp only
            rw [hl]
            obtain ⟨s2, h10, h11, h12, h13, _, h15, h16⟩ := h1.replace hm
            rw [h10]
            dsimp only
            have hp2 : ParOk s2 lv p q := h5.mono fun l hl' => h15 l (by omega)
            obtain ⟨s3, r, h17, h18, h19, h20⟩ := addAtLevel_sim h11 hlt hp2 pool (word (ptr + first)) (total - first) hg2 v.node2
            rw [h17]
            have hent : ent s1.heap (ptr, x) = ⟨ptr, pool, first, 0⟩ := by simp [ent, hxi]
            rw [h12, hent] at h19
            have host : (∀ u, (v.give2 u).isSome = true) → v.node2 = true → ((v.give2 s2.used).isSome && v.node2) = true :=
              fun h21 h22 => by rw [h21, h22]; rfl
            have spl : Tracker.trackingSplit (view s1) pool ptr total first up true ((v.give2 s2.used).isSome && v.node2) =
                match (view s3, r) with
                | (st', .success) => (st', .success, true)
                | (_, r) => (view s1, r, true) := by
              unfold Tracker.trackingSplit
              rw [h4]
              dsimp only
              rw [hsz, if_neg h9, hup]
              dsimp only
              rw [h19]
              rfl
            by_cases hr : r = .success
            · subst hr
              dsimp only
              obtain ⟨s4, h21, h22, h23, _⟩ := h18.release
              rw [h21]
              refine ⟨s4, _, rfl, h22, .inr ⟨true, _, ?_, fun _ => rfl, host⟩⟩
              rw [spl, h23]
            · obtain ⟨hlv3, hhp3⟩ := h20 hr
              have hm3 : (ptr, x) ∈ s3.lv lv := by
                rw [hlv3]
                exact h16
              have hh3 : view s3 = view s2 := by
                have : Tracker.addAtLevel (view s2) lv pool (word (ptr + first)) (total - first) q
                    ((v.give2 s2.used).isSome && v.node2) = (view s3, r) := by rw [h12, hent]; exact h19
                unfold Tracker.addAtLevel at this
                split at this
                · exact (congrArg Prod.fst this).symm
                · split at this
                  · exact (congrArg Prod.fst this).symm
                  · exact absurd (congrArg Prod.snd this).symm hr
              obtain ⟨s4, h21, h22, h23, _⟩ := h18.replace hm3
              obtain ⟨s5, h24, h25, h26, _⟩ := bail_sim h22 r true
              have hea : ent s3.heap (ptr, a) = ent s1.heap (ptr, a) := by
                unfold ent
                dsimp only
                rw [hhp3 a (by simp), h13]
              have hv5 : view s5 = view s1 := by
                rw [h26, h23, hh3, h12, setLevel_setLevel, hea]
                have : (Tracker.setLevel (view s1) lv (Tracker.upsert ((view s1).lv lv) (ent s1.heap (ptr, x)))).lv lv =
                    Tracker.upsert ((view s1).lv lv) (ent s1.heap (ptr, x)) := by simp [Tracker.setLevel]
                rw [this, view_lv, upsert_back hm (fun b hb => h1.once lv ptr b a hb hm), ← view_lv, setLevel_self]
              have hgoal : ∃ s' r', (match update s3 lv ptr a v.leaf3 with
                  | none => none
                  | some s4 => TrkMem.bail s4 x r true) = some (s', r') ∧ Inv s' [] ∧
                  ((true = false ∧ view s' = view s1 ∧ r'.2 = false ∧ r'.1 ≠ .success) ∨
                    ∃ host1 host2, Tracker.trackingSplit (view s1) pool ptr total first up host1 host2 = (view s', r') ∧
                      ((∀ u, (v.give u).isSome = true) → host1 = true) ∧
                      ((∀ u, (v.give2 u).isSome = true) → v.node2 = true → host2 = true)) := by
                rw [hl3, h21]
                refine ⟨s5, _, h24, h25, .inr ⟨true, _, ?_, fun _ => rfl, host⟩⟩
                rw [spl, hv5]
                cases r <;> first | exact absurd rfl hr | rfl
              cases r <;> first | exact absurd rfl hr | exact hgoal
          | _ =>
            refine bail _ ?_
            unfold Tracker.trackingSplit
            rw [h4]
            dsimp only
            rw [hsz, if_neg h9, hup]
            rfl

theorem noKids_level {a : Addr} {ptr lv : Nat} (hk : Childless s ptr) (h1 : ∃ l, (ptr, a) ∈ s.lv l)
    (h2 : (s.heap a).nch = 0 → (ptr, a) ∈ s.lv lv) : (ptr, a) ∈ s.lv lv := by
  obtain ⟨l, h3⟩ := h1
  exact h2 (hk l a h3)

theorem merge_sim (h : Inv s []) (pool lo hi total : Nat) (up : Option Nat) (v : Ans) (hg : Honest v.give)
    (hl : v.leaf = true) (hlo : Childless s lo) (hhi : Childless s hi) :
    ∃ s' r, trackingMerge s pool lo hi total up v = some (s', r) ∧ Inv s' [] ∧
      ((v.lock = false ∧ view s' = view s ∧ r.2 = false ∧ r.1 ≠ .success) ∨
        ∃ host, Tracker.trackingMerge (view s) pool lo hi total up host = (view s', r) ∧
          ((∀ u, (v.give u).isSome = true) → host = true)) := by
  unfold trackingMerge
  cases hx : v.give s.used with
  | none =>
    refine ⟨s, _, rfl, h, .inr ⟨false, by simp [Tracker.trackingMerge], fun h1 => ?_⟩⟩
    have := h1 s.used
    rw [hx] at this
    cases this
  | some x =>
    obtain ⟨h1, h2⟩ := h.take (hg _ _ hx) ⟨pool, total, 0⟩
    have hold : ∀ (l k : Nat) (a : Addr), (k, a) ∈ s.lv l → (newBlk s x ⟨pool, total, 0⟩).heap a = s.heap a := by
      intro l k a ha
      refine upd_ne _ _ fun h3 => ?_
      have := (h.alive l k a ha).1
      rw [h3, hg _ _ hx] at this
      cases this
    have hlo1 : Childless (newBlk s x ⟨pool, total, 0⟩) lo := fun l a ha => by rw [hold l lo a ha]; exact hlo l a ha
    have hhi1 : Childless (newBlk s x ⟨pool, total, 0⟩) hi := fun l a ha => by rw [hold l hi a ha]; exact hhi l a ha
    dsimp only
    generalize newBlk s x ⟨pool, total, 0⟩ = s1 at h1 h2 hlo1 hhi1 ⊢
    cases hlk : v.lock with
    | false =>
      rw [if_pos rfl]
      obtain ⟨s', h3, h4, h5, _⟩ := bail_sim h1 .unknown false
      exact ⟨s', _, h3, h4, .inl ⟨rfl, by rw [h5, h2], rfl, by simp⟩⟩
    | true =>
      rw [if_neg (by simp)]
      rw [← h2]
      have bail : ∀ (s2 : St), Inv s2 [x] → view s2 = view s1 → ∀ (r : Res),
          Tracker.trackingMerge (view s1) pool lo hi total up true = (view s1, r, false) →
          ∃ s' r', bail s2 x r false = some (s', r') ∧ Inv s' [] ∧
          ((true = false ∧ view s' = view s1 ∧ r'.2 = false ∧ r'.1 ≠ .success) ∨
            ∃ host, Tracker.trackingMerge (view s1) pool lo hi total up host = (view s', r') ∧
              ((∀ u, (v.give u).isSome = true) → host = true)) := by
        intro s2 hi2 hv2 r hr
        obtain ⟨s', h3, h4, h5, _⟩ := bail_sim hi2 r false
        exact ⟨s', _, h3, h4, .inr ⟨true, by rw [hr, h5, hv2], fun _ => rfl⟩⟩
      rcases mostNested_sim h1 lo false with ⟨h3, h4⟩ | ⟨ll, p, la, q, h3, hllt, h4, _, _, hex, hlev, _⟩
      · rw [h3]
        refine bail s1 h1 rfl _ ?_
        unfold Tracker.trackingMerge
        rw [h4]
        rfl
      · rw [h3]
        dsimp only
        rcases mostNested_sim h1 hi false with ⟨h5, h6⟩ | ⟨hl', p', ha, q', h5, hhlt, h6, _, _, hex', hlev', _⟩
        · rw [h5]
          refine bail s1 h1 rfl _ ?_
          unfold Tracker.trackingMerge
          rw [h4, h6]
          rfl
        · rw [h5]
          dsimp only
          have hml := noKids_level hlo1 hex hlev
          have hmh := noKids_level hhi1 hex' hlev'
          by_cases h7 : ll ≠ hl'
          · rw [if_pos h7]
            refine bail s1 h1 rfl _ ?_
            unfold Tracker.trackingMerge
            rw [h4, h6]
            dsimp only
            rw [if_pos h7]
            rfl
          · rw [if_neg h7]
            have h7' : ll = hl' := Decidable.of_not_not h7
            subst h7'
            rw [h1.load hml, h1.load hmh]
            dsimp only
            by_cases h8 : (s1.heap la).pool ≠ (s1.heap ha).pool
            · rw [if_pos h8]
              refine bail s1 h1 rfl _ ?_
              unfold Tracker.trackingMerge
              rw [h4, h6]
              dsimp only
              rw [if_neg h7, if_pos (show (ent s1.heap (lo, la)).pool ≠ (ent s1.heap (hi, ha)).pool from h8)]
              rfl
            · rw [if_neg h8]
              by_cases h9 : word ((s1.heap la).size + (s1.heap ha).size) ≠ total
              · rw [if_pos h9]
                refine bail s1 h1 rfl _ ?_
                unfold Tracker.trackingMerge
                rw [h4, h6]
                dsimp only
                rw [if_neg h7, if_neg (show ¬(ent s1.heap (lo, la)).pool ≠ (ent s1.heap (hi, ha)).pool from h8),
                  if_pos (show word ((ent s1.heap (lo, la)).size + (ent s1.heap (hi, ha)).size) ≠ total from h9)]
                rfl
              · rw [if_neg h9]
                obtain ⟨s2, h10, h11, h12, h13, h14⟩ := h1.fill (x := x) (by simp) ⟨pool, total, (s1.heap la).nch + (s1.heap ha).nch⟩
                rw [h10]
                dsimp only
                have mrg : Tracker.trackingMerge (view s1) pool lo hi total up true =
                    match upMerge lo hi total up with
                    | .success => (Tracker.setLevel (view s1) ll ((Tracker.upsert ((view s1).lv ll)
                        ⟨lo, pool, total, (s1.heap la).nch + (s1.heap ha).nch⟩).filter fun e => e.key ≠ hi), .success, true)
                    | r => (view s1, r, false) := by
                  unfold Tracker.trackingMerge
                  rw [h4, h6]
                  dsimp only
                  rw [if_neg h7, if_neg (show ¬(ent s1.heap (lo, la)).pool ≠ (ent s1.heap (hi, ha)).pool from h8),
                    if_neg (show ¬word ((ent s1.heap (lo, la)).size + (ent s1.heap (hi, ha)).size) ≠ total from h9)]
                  rfl
                cases hup : upMerge lo hi total up with
                | success =>
                  rw [hup] at mrg
                  dsimp only at mrg ⊢
                  rw [hl]
                  have hml2 : (lo, la) ∈ s2.lv ll := by rw [h13]; exact hml
                  obtain ⟨s3, h15, h16, h17, _, _, _, h20⟩ := h11.replace hml2
                  rw [h15]
                  dsimp only
                  obtain ⟨s4, h21, h22, h23, h24⟩ := h16.release
                  rw [h21]
                  dsimp only
                  have hne : hi ≠ lo := by
                    intro he
                    subst he
                    unfold upMerge at hup
                    split at hup
                    · cases hup
                    · split at hup
                      · cases hup
                      · omega
                  have hmh4 : (hi, ha) ∈ s4.lv ll := by
                    have : ∀ s3, update s2 ll lo x true = some s3 → (hi, ha) ∈ s3.lv ll := by
                      intro s3 hs3
                      unfold update at hs3
                      rw [if_pos hllt, if_pos rfl, if_pos (hasKey_mem hml2)] at hs3
                      cases hs3
                      rw [setLevel_lv, if_pos rfl]
                      exact List.mem_map.2 ⟨(hi, ha), by rw [h13]; exact hmh, by simp [hne]⟩
                    rw [h24]
                    exact this s3 h15
                  obtain ⟨s5, h25, h26, h27, _, _⟩ := h22.erase hmh4
                  rw [h25]
                  dsimp only
                  obtain ⟨s6, h28, h29, h30, _⟩ := h26.release
                  rw [h28]
                  refine ⟨s6, _, rfl, h29, .inr ⟨true, ?_, fun _ => rfl⟩⟩
                  rw [mrg, h30, h27, h23, h17, h12, setLevel_setLevel]
                  have he : ent s2.heap (lo, x) = ⟨lo, pool, total, (s1.heap la).nch + (s1.heap ha).nch⟩ := by
                    simp [ent, h14]
                  have : ∀ L : List Entry, (Tracker.setLevel (view s1) ll L).lv ll = L := fun L => by simp [Tracker.setLevel]
                  rw [this, he]
                | _ =>
                  rw [hup] at mrg
                  exact bail s2 h11 h12 _ mrg

end Verif.TrkMem
