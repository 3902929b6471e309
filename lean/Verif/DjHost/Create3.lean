import Verif.DjHost.Create2
/-!
# Lemmas for the disjoint pool's own memory: a pool is made, the whole function
-/
namespace Verif.DjHost

theorem critNew_app (s : St) : (critNew s = some (0, { s with host := s.host.tail })) ∨
    ∃ a, a ≠ 0 ∧ fresh s a = true ∧ critNew s = some (a, { s with host := s.host.tail, crits := upd s.crits a (some []) }) := by
  unfold critNew
  rcases hostAlloc_app s with ⟨e1, _⟩ | ⟨a, h1, h2, e1⟩
  · left
    rw [bind_app, e1]
    dsimp only
    rw [if_pos rfl]
    rfl
  · right
    refine ⟨a, h1, h2, ?_⟩
    rw [bind_app, e1]
    dsimp only
    rw [if_neg h1]
    rfl

theorem limitsCreate_app (n : BitVec 64) (s : St) : (limitsCreate n s = some (0, { s with host := s.host.tail })) ∨
    ∃ a, a ≠ 0 ∧ fresh s a = true ∧
      limitsCreate n s = some (a, { s with host := s.host.tail, lims := upd s.lims a (some ⟨n, 0⟩) }) := by
  unfold limitsCreate
  rcases hostAlloc_app s with ⟨e1, _⟩ | ⟨a, h1, h2, e1⟩
  · left
    rw [bind_app, e1]
    dsimp only
    rw [if_pos rfl]
    rfl
  · right
    refine ⟨a, h1, h2, ?_⟩
    rw [bind_app, e1]
    dsimp only
    rw [if_neg h1]
    rfl

theorem initialize_ok {s : St} {A : World} {args : Bool} {q : Params} (h : Inv0 s A) (hsh : q.shared = 0 ∨ A.lims q.shared = true) :
    ∃ out s', (∀ fuel, 29 ≤ fuel → initializePool fuel args q s = some (out, s')) ∧
      (((args = true ∧ ∃ k, q.minBucket = 2 ^ k) ∧ ((out = (.oom, 0) ∧ SameBlocks s s') ∨
          (out.1 = .success ∧ out.2 ≠ 0 ∧ A.pools out.2 = none ∧
            Inv0 s' { A with pools := upd A.pools out.2 (some ⟨classesOf q.minBucket, q.shared, []⟩) }))) ∨
       (¬(args = true ∧ ∃ k, q.minBucket = 2 ^ k) ∧ out = (.invalidArgument, 0) ∧ s' = s)) := by
  by_cases hargs : args = false
  · refine ⟨_, s, fun fuel _ => ?_, Or.inr ⟨by simp [hargs], rfl, rfl⟩⟩
    unfold initializePool
    rw [if_pos hargs]
    rfl
  by_cases hpow : ∃ k, q.minBucket = 2 ^ k
  case neg =>
    refine ⟨_, s, fun fuel _ => ?_, Or.inr ⟨fun h => hpow h.2, rfl, rfl⟩⟩
    unfold initializePool
    rw [if_neg hargs, if_pos]
    · rfl
    · by_cases h0 : q.minBucket = 0
      · exact Or.inl h0
      · exact Or.inr fun e => hpow ((Verif.Utils.nat_pow2_iff h0).1 e)
  have hvalid : args = true ∧ ∃ k, q.minBucket = 2 ^ k := ⟨by cases args <;> simp_all, hpow⟩
  obtain ⟨j, hj⟩ := hpow
  have hnot : ¬(q.minBucket = 0 ∨ q.minBucket &&& (q.minBucket - 1) ≠ 0) := by
    rintro (h1 | h1)
    · rw [hj] at h1
      exact absurd h1 (Nat.ne_of_gt (Nat.pow_pos (by omega)))
    · rw [hj] at h1
      exact h1 (Verif.Utils.nat_and_pow2 j)
  obtain ⟨k, hk1, hk2, hk3⟩ := size1_pow j
  rw [← hj] at hk2 hk3
  suffices hs : ∃ out s', (∀ fuel, 29 ≤ fuel → initializePool fuel args q s = some (out, s')) ∧ ((out = (.oom, 0) ∧ SameBlocks s s') ∨
          (out.1 = .success ∧ out.2 ≠ 0 ∧ A.pools out.2 = none ∧
            Inv0 s' { A with pools := upd A.pools out.2 (some ⟨classesOf q.minBucket, q.shared, []⟩) })) by
    obtain ⟨out, s', g1, g2⟩ := hs
    exact ⟨out, s', g1, Or.inl ⟨hvalid, g2⟩⟩
  unfold initializePool
  simp only [if_neg hargs, if_neg hnot]
  -- the pool
  rcases hostAlloc_app s with ⟨e1, _⟩ | ⟨p, hp0, hpf, e1⟩
  · refine ⟨(.oom, 0), _, fun fuel _ => ?_, Or.inl ⟨rfl, SameBlocks.of (s' := { s with host := s.host.tail }) rfl rfl rfl rfl rfl rfl rfl⟩⟩
    rw [bind_app, e1]
    rfl
  rw [fresh_iff] at hpf
  simp only [bind_app (m := hostAlloc) (s := s), e1, if_neg hp0]
  simp only [bind_app (m := newPool _ _), newPool]
  -- the radix tree
  rcases critNew_app { s with host := s.host.tail, pools := upd s.pools p (some ⟨0, 0, 0, q.slabMin, q.capacity, q.trace, q.shared, 0⟩) } with
    e2 | ⟨known, hk0, hkf, e2⟩
  · refine ⟨(.oom, 0), { s with host := s.host.tail.tail }, fun fuel _ => ?_, Or.inl ⟨rfl, SameBlocks.of rfl rfl rfl rfl rfl rfl rfl⟩⟩
    rw [bind_app, e2]
    dsimp only
    rw [if_pos rfl, bind_app, freePool_app (c := ⟨0, 0, 0, q.slabMin, q.capacity, q.trace, q.shared, 0⟩) (by exact upd_same _ _ _)]
    dsimp only
    rw [upd_undo hpf.1]
    rfl
  rw [fresh_iff] at hkf
  simp only [bind_app (m := critNew), e2, if_neg hk0]
  -- the limits
  rcases limitsCreate_app (BitVec.allOnes 64) { s with host := s.host.tail.tail, pools := upd s.pools p (some ⟨0, 0, 0, q.slabMin, q.capacity, q.trace, q.shared, 0⟩), crits := upd s.crits known (some []) } with
    e3 | ⟨lim, hl0, hlf, e3⟩
  · refine ⟨(.oom, 0), { s with host := s.host.tail.tail.tail }, fun fuel _ => ?_, Or.inl ⟨rfl, SameBlocks.of rfl rfl rfl rfl rfl rfl rfl⟩⟩
    rw [bind_app, e3]
    dsimp only
    rw [if_pos rfl, bind_app, freeCrit_app (c := []) (by exact upd_same _ _ _)]
    dsimp only
    rw [bind_app, freePool_app (c := ⟨0, 0, 0, q.slabMin, q.capacity, q.trace, q.shared, 0⟩) (by exact upd_same _ _ _)]
    dsimp only
    rw [upd_undo hpf.1, upd_undo hkf.2.1]
    rfl
  rw [fresh_iff] at hlf
  simp only [bind_app (m := limitsCreate _), e3, if_neg hl0]
  -- the number of buckets
  have hsize2 : max (min q.minBucket CutOff) 8 + max (min q.minBucket CutOff) 8 / 2 = 3 * 2 ^ (k + 2) := by
    rw [hk2, show 2 ^ (k + 3) = 2 ^ (k + 2) * 2 from Nat.pow_succ 2 (k + 2)]
    omega
  rw [hsize2, hk2]
  let n := 1 + 2 * (28 - k)
  have hcount : ∀ (s1 : St) fuel, 29 ≤ fuel → countLoop fuel (3 * 2 ^ (k + 2)) 1 s1 = some (n, s1) := by
    intro s1 fuel hf
    exact count_ok (28 - k) (k + 2) 1 fuel (by omega) (by omega)
  -- the array
  rcases hostAlloc_app { s with host := s.host.tail.tail.tail, pools := upd s.pools p (some ⟨0, 0, 0, q.slabMin, q.capacity, q.trace, q.shared, 0⟩), crits := upd s.crits known (some []), lims := upd s.lims lim (some ⟨BitVec.allOnes 64, 0⟩) } with
    ⟨e4, _⟩ | ⟨arr, ha0, haf, e4⟩
  · refine ⟨(.oom, 0), { s with host := s.host.tail.tail.tail.tail }, fun fuel hf => ?_, Or.inl ⟨rfl, SameBlocks.of rfl rfl rfl rfl rfl rfl rfl⟩⟩
    rw [bind_app, hcount _ fuel hf]
    dsimp only
    rw [bind_app, e4]
    dsimp only
    rw [if_pos rfl, bind_app, freeLimits_app (c := ⟨BitVec.allOnes 64, 0⟩) (by exact upd_same _ _ _)]
    dsimp only
    rw [bind_app, freeCrit_app (c := []) (by exact upd_same _ _ _)]
    dsimp only
    rw [bind_app, freePool_app (c := ⟨0, 0, 0, q.slabMin, q.capacity, q.trace, q.shared, 0⟩) (by exact upd_same _ _ _)]
    dsimp only
    rw [upd_undo hpf.1, upd_undo hkf.2.1, upd_undo hlf.2.2.1]
    rfl
  rw [fresh_iff] at haf
  -- the buckets
  let limits := if q.shared ≠ 0 then q.shared else lim
  let P : Pool := ⟨known, arr, n, q.slabMin, q.capacity, q.trace, q.shared, lim⟩
  let s0 : St := { s with host := s.host.tail.tail.tail.tail, pools := upd s.pools p (some P), crits := upd s.crits known (some []),
                          lims := upd s.lims lim (some ⟨BitVec.allOnes 64, 0⟩), arrs := upd s.arrs arr (some (List.replicate n none)) }
  have hn : 2 * (28 - k) + 1 = n := by show _ = 1 + _; omega
  have made0 : Made s0 s0 arr p limits [] (2 * (28 - k) + 1) := by
    refine ⟨rfl, rfl, rfl, rfl, rfl, ?_, by simp, fun _ _ => rfl, by simp⟩
    rw [hn]
    show upd s.arrs arr _ = upd (upd s.arrs arr _) arr _
    rw [upd_upd]
    rfl
  obtain ⟨s1, d1, f1, f2, f3⟩ := fill_ok (28 - k) k (by omega) made0
  obtain ⟨b, s2, f4, f5⟩ := made_one (size := CutOff) (r := 0) f2 (Nat.pow_pos (by omega))
  have hL : (d1 ++ [b]).length = n := by
    rw [List.length_append, f3]
    show 0 + _ + 1 = 1 + _
    omega
  have harr : s2.arrs arr = some ((d1 ++ [b]).map some) := by
    rw [f5.arrs, upd_same]
    simp
  have hcheck : checkLoop arr n 0 s2 = some (decide (0 ∉ d1 ++ [b]), s2) := by
    have := check_ok harr n 0 (by rw [hL]; omega)
    rw [List.drop_zero] at this
    exact this
  have f1' : ∀ fuel, 29 ≤ fuel → fillLoop fuel arr p (if q.shared ≠ 0 then q.shared else lim) (2 ^ (k + 3)) (3 * 2 ^ (k + 2)) 0
      { s with host := s.host.tail.tail.tail.tail, pools := upd s.pools p (some ⟨known, arr, n, q.slabMin, q.capacity, q.trace, q.shared, lim⟩),
               crits := upd s.crits known (some []), lims := upd s.lims lim (some ⟨BitVec.allOnes 64, 0⟩),
               arrs := upd s.arrs arr (some (List.replicate n none)) } = some (d1.length, s1) := fun fuel hf => f1 fuel (by omega)
  have f4' : ∀ (α : Type) (k : M α), (do
      let b ← createBucket CutOff p (if q.shared ≠ 0 then q.shared else lim)
      setArr arr d1.length b
      k : M α) s1 = k s2 := f4
  by_cases hgood : 0 ∉ d1 ++ [b]
  · have hm : ∀ x ∈ d1 ++ [b], x ≠ 0 := fun x hx e => hgood (e ▸ hx)
    have hnd : (d1 ++ [b]).Nodup := by
      have := f5.nodup
      rw [List.filter_eq_self.2 (fun x hx => by simpa using hm x hx)] at this
      exact this
    have hlim : s.lims lim = none := hlf.2.2.1
    obtain ⟨g1, g2, g3⟩ := inv_created (s' := s2) (p := p) (known := known) (lim := lim) (arr := arr) (q := q) (n := n)
      (v := ⟨BitVec.allOnes 64, 0⟩) (L := d1 ++ [b]) h hp0 hl0 hpf.1 hkf.2.1 hlim haf.2.2.2.1 hsh f5.pools f5.crits f5.lims
      (by rw [f5.arrs]; show upd (upd s.arrs arr _) arr _ = _; rw [upd_upd]; simp) f5.slabs f5.prov hL hnd
      (by rw [hk3]; exact hn.symm)
      (fun x hx => f5.made x hx (hm x hx))
      (fun x hx => f5.other x (Or.inl hx))
    refine ⟨(.success, p), s2, fun fuel hf => ?_, Or.inr ⟨rfl, hp0, g1, g3⟩⟩
    rw [bind_app, hcount _ fuel hf]
    dsimp only
    rw [bind_app, e4]
    dsimp only
    rw [if_neg ha0]
    simp only [bind_app (m := newArr _ _), newArr]
    rw [bind_app]
    simp only [setP, upd_same, upd_upd]
    rw [bind_app, f1' fuel hf]
    dsimp only
    rw [f4', bind_app, hcheck]
    dsimp only
    rw [if_pos (by simpa using hgood)]
    rfl
  · refine ⟨(.oom, 0), { s2 with pools := s.pools, crits := s.crits, lims := s.lims, arrs := s.arrs, bucks := s.bucks }, fun fuel hf => ?_,
      Or.inl ⟨rfl, SameBlocks.of rfl rfl rfl rfl rfl f5.slabs f5.prov⟩⟩
    rw [bind_app, hcount _ fuel hf]
    dsimp only
    rw [bind_app, e4]
    dsimp only
    rw [if_neg ha0]
    simp only [bind_app (m := newArr _ _), newArr]
    rw [bind_app]
    simp only [setP, upd_same, upd_upd]
    rw [bind_app, f1' fuel hf]
    dsimp only
    rw [f4', bind_app, hcheck]
    dsimp only
    rw [if_neg (by simpa using hgood)]
    have hundo := undo_ok (p := p) (lim := limits) (fuel := fuel) n 0 (s := s2) (by omega) harr (by rw [hL]; omega)
      (fun x hx hx0 => by
        obtain ⟨_, size, _, h1⟩ := f5.made x (by simpa using hx) hx0
        exact ⟨size, h1⟩) (by simpa using f5.nodup)
    rw [List.drop_zero] at hundo
    have hbucks : (fun x => if x ∈ d1 ++ [b] ∧ x ≠ 0 then none else s2.bucks x) = s.bucks := by
      funext x
      by_cases hx : x ∈ d1 ++ [b] ∧ x ≠ 0
      · rw [if_pos hx]
        exact (f5.made x hx.1 hx.2).1.symm
      · rw [if_neg hx]
        refine f5.other x ?_
        by_cases hx0 : x = 0
        · exact Or.inr hx0
        · exact Or.inl fun h1 => hx ⟨h1, hx0⟩
    rw [hbucks] at hundo
    rw [bind_app, hundo]
    dsimp only
    have hfa : ∀ (s3 : St), s3.arrs = s2.arrs → freeArr arr s3 = some ((), { s3 with arrs := upd s3.arrs arr none }) := by
      intro s3 h3
      simp only [freeArr, h3, harr]
    rw [bind_app, hfa { s2 with bucks := s.bucks } rfl]
    dsimp only
    rw [bind_app, freeLimits_app (c := ⟨BitVec.allOnes 64, 0⟩) (by dsimp only; rw [f5.lims]; exact upd_same _ _ _)]
    dsimp only
    rw [bind_app, freeCrit_app (c := []) (by dsimp only; rw [f5.crits]; exact upd_same _ _ _)]
    dsimp only
    rw [bind_app, freePool_app (c := P) (by dsimp only; rw [f5.pools]; exact upd_same _ _ _)]
    dsimp only
    rw [f5.pools, f5.crits, f5.lims, f5.arrs]
    simp only [s0, upd_upd]
    rw [pure_app]
    have u1 : upd s.pools p none = s.pools := by rw [← hpf.1, upd_self]
    have u2 : upd s.crits known none = s.crits := by
      have := hkf.2.1
      dsimp only at this
      rw [← this, upd_self]
    have u3 : upd s.lims lim none = s.lims := by
      have := hlf.2.2.1
      dsimp only at this
      rw [← this, upd_self]
    have u4 : upd s.arrs arr none = s.arrs := by
      have := haf.2.2.2.1
      dsimp only at this
      rw [← this, upd_self]
    rw [u1, u2, u3, u4]

end Verif.DjHost
