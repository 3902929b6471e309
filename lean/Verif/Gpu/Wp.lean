import Verif.Gpu.Spec

/-!
# One thread's view

`wp` says that a program keeps its promises whatever is answered, from what the thread itself has: the resources it owns,
its current context, its last native error, the refused calls.
-/
namespace Verif.Gpu
open Function (update)

structure L where
  own : Rsrc → Option Info
  cur : Nat
  user : Nat
  lost : Bool
  tls : Be → Nat
  refused : List (Call × Nat)

def L.after (l : L) (c : Call) (r : Resp) : L :=
  { own := c.liveAfter l.own l.cur r
    cur := c.curAfter l.cur r
    user := l.user
    lost := l.lost || (c.isCtx && decide (r.err ≠ 0) && decide (l.cur ≠ l.user))
    tls := l.tls
    refused := if r.err = 0 then l.refused else (c, r.err) :: l.refused }

def wp (pid : Nat) (op : Op) (Q : Option Out → L → Prop) : Prog → L → Prop
  | .ret o, l => Q (some o) l
  | .ub, l => Q none l
  | .call c k, l => c.Valid l.own ∧ CallOk l.own l.cur pid op c ∧
      ∀ r, c.Answer l.own l.cur pid r → wp pid op Q (k r) (l.after c r)
  | .store b e k, l => wp pid op Q k { l with tls := update l.tls b e }

/-- What a call promises when it returns. -/
def Post (E : Env) (op : Op) (own0 : Rsrc → Option Info) : Option Out → L → Prop
  | none, l => Undefined E op l.refused
  | some o, l =>
    (l.lost = false → l.cur = l.user) ∧
    NativeOk op o l.refused l.tls ∧
    (∀ x ∈ op.gives o, ∃ i, l.own x = some i ∧ Fits (op, o) x i) ∧
    (o.res ≠ .success → (∀ x ∈ op.takes, l.own x = own0 x) ∧ op.gives o = []) ∧
    (Clean l.refused → (op = .cuParamsCreate → E.cu = true) → ∀ x i, l.own x = some i →
      x ∈ op.gives o ∨ (o.res ≠ .success ∧ x ∈ op.takes))

theorem liveAfter_plain {live cur r} {c : Call} (h1 : c.makes r = none) (h2 : c.kills = none)
    (h3 : c.residency = none) : c.liveAfter live cur r = live := by
  funext x
  unfold Call.liveAfter Info.after
  rw [h1, h2, h3]
  simp

theorem liveAfter_refused {live cur} {r : Resp} {c : Call} (h : r.err ≠ 0) (h2 : c.killsAnyway = false) :
    c.liveAfter live cur r = live := by
  funext x
  unfold Call.liveAfter Info.after
  rw [if_neg (by simp [h]), if_neg (by simp [h, h2])]
  cases hc : c.residency with
  | none => simp
  | some y => simp [h]

variable {pid : Nat} {op : Op} {Q : Option Out → L → Prop} {E : Env}

theorem wp_cu2umf {e : Nat} {k : Res → Prog} {l : L}
    (h : ∀ u tls, (u = .success ↔ e = 0) → (u = .specific → tls .cu = e ∧ ¬ mapped .cu e) →
      u ≠ .invalidAlignment →
      wp pid op Q (k u) { l with tls := tls }) :
    wp pid op Q (cu2umf e k) l := by
  unfold cu2umf
  split
  · next he => exact h .success l.tls (by simp [he]) (by simp) (by simp)
  split
  · next he _ => exact h .outOfHostMemory l.tls (by simp [he]) (by simp) (by simp)
  split
  · next he _ _ => exact h .invalidArgument l.tls (by simp [he]) (by simp) (by simp)
  split
  · next he _ _ _ => exact h .outOfResources l.tls (by simp [he]) (by simp) (by simp)
  · next h0 h2 h1 h4 =>
    simp only [wp]
    refine h .specific _ (by simp [h0]) (fun _ => ⟨by simp, ?_⟩) (by simp)
    unfold mapped
    omega

theorem wp_ze2umf {e : Nat} {k : Res → Prog} {l : L}
    (h : ∀ u tls, (u = .success ↔ e = 0) → (u = .specific → tls .ze = e ∧ ¬ mapped .ze e) →
      wp pid op Q (k u) { l with tls := tls }) :
    wp pid op Q (ze2umf e k) l := by
  unfold ze2umf
  split
  · next he => exact h .success l.tls (by simp [he]) (by simp)
  split
  · next he _ => exact h .outOfHostMemory l.tls (by simp [he]) (by simp)
  split
  · next he _ _ => exact h .invalidArgument l.tls (by simp [he]) (by simp)
  · next h0 h2 h1 =>
    simp only [wp]
    refine h .specific _ (by simp [h0]) (fun _ => ⟨by simp, ?_⟩)
    unfold mapped
    omega

theorem wp_setContext {req : Nat} {k : Res → Nat → Prog} {l : L}
    (hs : wp pid op Q (k .success l.cur) { l with cur := req })
    (hf : ∀ u rs tls c e, u ≠ .success → u ≠ .invalidAlignment → c.isCtx = true → e ≠ 0 →
      (u = .specific → tls .cu = e ∧ ¬ mapped .cu e) →
      wp pid op Q (k u rs) { l with
        lost := l.lost || decide (l.cur ≠ l.user)
        tls := tls
        refused := (c, e) :: l.refused }) :
    wp pid op Q (setContext req k) l := by
  unfold setContext
  refine ⟨trivial, ⟨by simp [Call.usesCtx], by simp⟩, fun r hr => ?_⟩
  dsimp only
  split
  · next he =>
    refine wp_cu2umf fun u tls hu hsp hal => ?_
    have := hf u 0 tls .cuCtxGetCurrent r.err (fun h => he (hu.1 h)) hal rfl he hsp
    simpa [L.after, he, Call.isCtx, Call.curAfter,
      liveAfter_plain (c := .cuCtxGetCurrent) rfl rfl rfl] using this
  next he =>
  have he0 : r.err = 0 := by simpa using he
  have hv : r.val = l.cur := hr.2.1 rfl he0
  have hl : l.after .cuCtxGetCurrent r = l := by
    simp [L.after, he0, Call.curAfter, liveAfter_plain (c := .cuCtxGetCurrent) rfl rfl rfl]
  rw [hl, hv]
  split
  · refine ⟨trivial, ⟨by simp [Call.usesCtx], by simp⟩, fun r2 hr2 => ?_⟩
    dsimp only
    split
    · next he2 =>
      refine wp_cu2umf fun u tls hu hsp hal => ?_
      have := hf u l.cur tls (.cuCtxSetCurrent req) r2.err (fun h => he2 (hu.1 h)) hal rfl he2 hsp
      simpa [L.after, he2, Call.isCtx, Call.curAfter,
        liveAfter_plain (c := .cuCtxSetCurrent req) rfl rfl rfl] using this
    · next he2 =>
      have he20 : r2.err = 0 := by simpa using he2
      have hl2 : l.after (.cuCtxSetCurrent req) r2 = { l with cur := req } := by
        simp [L.after, he20, Call.curAfter,
          liveAfter_plain (c := .cuCtxSetCurrent req) rfl rfl rfl]
      rw [hl2]
      exact hs
  · next hreq =>
    have : l.cur = req := by simpa using hreq
    have hl2 : l = { l with cur := req } := by cases l; simp_all
    rw [hl2]
    simpa [this] using hs

end Verif.Gpu
