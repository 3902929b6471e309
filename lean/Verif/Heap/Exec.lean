import Verif.Heap.Machine

/-!
# Concrete runs

A checker for runs: every step that it accepts is a step of the machine. Only used to show that states are reachable.
-/
namespace Verif.Heap
open Function (update)

/-- A state, with the threads that may be in a call and the addresses that clients may have. -/
structure X where
  s : St
  ths : List Tid
  bs : List Nat

def X.Ok (x : X) : Prop := (∀ t, x.s.th t ≠ none → t ∈ x.ths) ∧ ∀ q, x.s.blk q ≠ none → q ∈ x.bs

instance (x y : Reg) : Decidable (Apart x y) := by unfold Apart; infer_instance
instance (n : Nat) : Decidable (flagsPlain n) := by unfold flagsPlain; infer_instance

def srcArena (y : Reg) : Bool := match y.src with
  | .arena _ => true
  | _ => false

theorem srcArena_iff {y : Reg} : srcArena y = true ↔ ∃ a, y.src = .arena a := by
  unfold srcArena
  cases y.src <;> simp

def validB (tbb : Nat → Option TbbHeap) (arena : Nat → Option Bool) (own : List Reg) : Call → Bool
  | .tbbDestroy h | .tbbMalloc h _ | .tbbAligned h _ _ => (tbb h).isSome
  | .tbbRealloc h ptr _ | .tbbMsize h ptr =>
      (tbb h).isSome && (ptr == 0 || own.any fun y => decide (y.ptr = ptr ∧ y.src = .tbb h))
  | .tbbFree h ptr => (tbb h).isSome && own.any fun y => decide (y.ptr = ptr ∧ y.src = .tbb h)
  | .setHooks a | .arenaDestroy a => (arena a).isSome
  | .mallocx _ fl => decide (flagsPlain fl) && (arena (flagsArena fl)).isSome
  | .rallocx ptr n fl => decide (flagsPlain fl) && (n != 0) && (arena (flagsArena fl)).isSome &&
      own.any fun y => decide (y.ptr = ptr) && srcArena y
  | .dallocx ptr fl => decide (flagsPlain fl) && own.any fun y => decide (y.ptr = ptr) && srcArena y
  | .usable ptr => ptr == 0 || own.any fun y => decide (y.ptr = ptr) && srcArena y
  | .provFree pv ptr n => ptr == 0 || own.any fun y => decide (y.ptr = ptr ∧ y.src = .prov pv ∧ (n = y.size ∨ n = 0))
  | .memset ptr n => own.any fun y => decide (y.ptr ≤ ptr ∧ ptr + n ≤ y.ptr + y.size)
  | _ => true

theorem validB_sound {tbb arena own} {c : Call} (h : validB tbb arena own c = true) : c.Valid tbb arena own := by
  cases c <;> simp only [validB, Call.Valid, Bool.and_eq_true, Bool.or_eq_true, List.any_eq_true, decide_eq_true_eq,
    Option.isSome_iff_exists, srcArena_iff, bne_iff_ne, beq_iff_eq] at h ⊢ <;> first | exact h | skip
  · exact ⟨h.1, fun h0 => h.2.resolve_left h0⟩
  · exact ⟨h.1, fun h0 => h.2.resolve_left h0⟩
  · exact ⟨h.1.1.1, h.1.1.2, h.1.2, h.2⟩
  · exact fun h0 => h.resolve_left h0
  · exact fun h0 => h.resolve_left h0

def answerB (x : X) (t : Tid) (own : List Reg) (c : Call) (r : Resp) : Bool :=
  (match c.gives r with
    | none => true
    | some g => g.ptr != 0 && decide (c.align ∣ g.ptr) &&
        x.bs.all (fun q => match x.s.blk q with
          | none => true
          | some b => decide (Apart g b.reg)) &&
        own.all (fun y => decide (c.takes r = some y.ptr ∨ Apart g y)) &&
        x.ths.all (fun t' => t' == t || match x.s.th t' with
          | none => true
          | some f => f.own.all fun y => decide (Apart g y))) &&
  (match c with
    | .tbbRealloc _ ptr n => n != 0 || ptr == 0 || r.val == 0
    | .arenasCreate => r.err != 0 || (decide (r.val < 4095) && (x.s.arena r.val).isNone)
    | .allocInfo ptr => r.err != 0 || own.all fun y => y.ptr != ptr || r.val == y.size
    | .tbbCreate _ _ _ => r.err != 0 || (x.s.tbb r.val).isNone
    | _ => true)

theorem answerB_sound {x : X} (hx : x.Ok) {t own c r} (h : answerB x t own c r = true) : c.Answer x.s t own r := by
  simp only [answerB, Bool.and_eq_true] at h
  obtain ⟨h1, h2⟩ := h
  have hg : ∀ g, c.gives r = some g → (g.ptr ≠ 0 ∧ c.align ∣ g.ptr) ∧ (∀ ptr b, x.s.blk ptr = some b → Apart g b.reg) ∧
      (∀ y ∈ own, c.takes r = some y.ptr ∨ Apart g y) ∧
      ∀ t' f, t' ≠ t → x.s.th t' = some f → ∀ y ∈ f.own, Apart g y := by
    intro g hg
    rw [hg] at h1
    simp only [Bool.and_eq_true, List.all_eq_true, decide_eq_true_eq, bne_iff_ne, Bool.or_eq_true, beq_iff_eq] at h1
    obtain ⟨⟨⟨⟨a1, a2⟩, a3⟩, a4⟩, a5⟩ := h1
    refine ⟨⟨a1, a2⟩, fun ptr b hb => ?_, a4, fun t' f hne hf y hy => ?_⟩
    · have := a3 ptr (hx.2 ptr (by rw [hb]; simp))
      rw [hb] at this
      simpa using this
    · have := (a5 t' (hx.1 t' (by rw [hf]; simp))).resolve_left hne
      rw [hf] at this
      simp only [List.all_eq_true, decide_eq_true_eq] at this
      exact this y hy
  refine ⟨⟨fun g h => (hg g h).1, ?_, ?_, ?_⟩, fun g h => (hg g h).2, ?_, ?_⟩
  · rintro h ptr rfl h0
    simpa [h0] using h2
  · rintro rfl he
    simp [he] at h2
    exact h2.1
  · rintro ptr rfl he y hy hp
    simp [he] at h2
    have := (h2 y hy).resolve_left (by simpa using hp)
    exact this
  · rintro id g k rfl he
    simpa [he] using h2
  · rintro rfl he
    simp [he] at h2
    exact h2.2

def legalB (cfg : Cfg) (x : X) (op : Op) : Bool :=
  (match op.pool with
    | none => true
    | some (f, p) => match x.s.made p with
      | none => false
      | some m => decide (m.file = f)) &&
  (op.ptr == 0 || match op.pool, x.s.blk op.ptr with
    | some (_, p), some b => b.pool == p
    | _, _ => false) &&
  (match op with
    | .destroy _ p => x.ths.all fun t' => match x.s.th t' with
      | none => true
      | some fr => match fr.op.pool with
        | none => true
        | some (_, q) => q != p
    | .calloc _ _ num n => !cfg.noWrap || decide (num * n < 2 ^ 64)
    | .aligned f _ _ a => !cfg.someAlign || !decide (f = .je) || a != 0
    | _ => true) &&
  (match op with
    | .calloc _ _ _ _ => true
    | _ => match op.asks with
      | none => true
      | some y => decide (y.2.1 < 2 ^ 64 ∧ y.2.2 < 2 ^ 64))

theorem legalB_sound {cfg : Cfg} {x : X} (hx : x.Ok) {t op} (h : legalB cfg x op = true) : Legal cfg x.s t op := by
  simp only [legalB, Bool.and_eq_true] at h
  obtain ⟨⟨⟨h1, h2⟩, h3⟩, h4⟩ := h
  constructor
  · intro f p hp
    rw [hp] at h1
    dsimp only at h1
    split at h1
    · cases h1
    · next m hm => exact ⟨m, hm, by simpa using h1⟩
  · intro h0
    simp only [Bool.or_eq_true, beq_iff_eq, h0, false_or] at h2
    split at h2
    · next f p b hp hb => exact ⟨f, p, b, hp, hb, by simpa using h2⟩
    · cases h2
  · rintro f p rfl t' fr g hf hp
    simp only [List.all_eq_true] at h3
    have := h3 t' (hx.1 t' (by rw [hf]; simp))
    rw [hf] at this
    dsimp only at this
    rw [hp] at this
    simp at this
  · rintro hc f p num n rfl
    simpa [hc] using h3
  · rintro hc p n rfl
    simp [hc] at h3
  · intro y hy hne
    split at h4
    · exact absurd rfl (hne _ _ _ _)
    · rw [hy] at h4
      simpa using h4

/-- The run of a hook, given the answers. -/
def runH (recs : Pool → Option Rec) (table : Nat → Option Pool) :
    Prog → (Var → Res) → List Resp → Option (List (Call × Resp) × Option Out × (Var → Res))
  | .ret o, tls, _ => some ([], some o, tls)
  | .crash, tls, _ => some ([], none, tls)
  | .call _ _, _, [] => none
  | .call c k, tls, r :: rs => (runH recs table (k r) tls rs).map fun y => ((c, r) :: y.1, y.2)
  | .setTls v e k, tls, rs => runH recs table k (update tls v e) rs
  | .getTls v k, tls, rs => runH recs table (k (tls v)) tls rs
  | .getRec p k, tls, rs => match recs p with
    | some r => runH recs table (k r) tls rs
    | none => some ([], none, tls)
  | .getTab a k, tls, rs => runH recs table (k (table a)) tls rs
  | _, _, _ => none

theorem runH_sound {recs : Pool → Option Rec} {table : Nat → Option Pool} (prog : Prog) : ∀ {tls rs y},
    runH recs table prog tls rs = some y → Runs recs table prog tls y.1 y.2.1 y.2.2 := by
  induction prog with
  | ret o => intro tls rs y h; cases h; exact .ret
  | crash => intro tls rs y h; cases h; exact .crash
  | call c k ih =>
    intro tls rs y h
    cases rs with
    | nil => cases h
    | cons r rs =>
      simp only [runH, Option.map_eq_some_iff] at h
      obtain ⟨z, h1, rfl⟩ := h
      exact .call (ih r h1)
  | setTls v e k ih => intro tls rs y h; exact .setTls (ih h)
  | getTls v k ih => intro tls rs y h; exact .getTls (ih _ h)
  | getRec p k ih =>
    intro tls rs y h
    simp only [runH] at h
    split at h
    · next r hr => exact .getRec hr (ih r h)
    · next hr => cases h; exact .noRec hr
  | getTab a k ih => intro tls rs y h; exact .getTab (ih _ h)
  | _ => intro tls rs y h; cases h

def usesB (own : List Reg) (c : Call) (a : Nat) : Bool :=
  match c with
  | .arenaDestroy b => a == b
  | .mallocx _ fl => a == flagsArena fl
  | .rallocx ptr _ fl => a == flagsArena fl || own.any fun y => decide (y.ptr = ptr ∧ y.src = .arena a)
  | .dallocx ptr _ => own.any fun y => decide (y.ptr = ptr ∧ y.src = .arena a)
  | _ => false

def allowedB (s : St) (own : List Reg) (c : Call) (h : Hook) : Bool :=
  (match h.id with
    | none => false
    | some id => match c with
      | .tbbCreate id' _ _ => id == id'
      | _ => match c.tbbHeap with
        | none => false
        | some hp => match s.tbb hp with
          | none => false
          | some y => y.id == id) ||
  (match h.arena with
    | none => false
    | some a => usesB own c a && decide (s.arena a = some true))

theorem allowedB_sound {s : St} {own c h} (hh : allowedB s own c h = true) : Allowed s.tbb s.arena own c h := by
  simp only [allowedB, Bool.or_eq_true] at hh
  rcases hh with hh | hh
  · left
    split at hh
    · cases hh
    · next id hid =>
      refine ⟨id, hid, ?_⟩
      split at hh
      · next id' g b =>
        simp only [beq_iff_eq] at hh
        subst hh
        exact .inr ⟨g, b, rfl⟩
      · split at hh
        · cases hh
        · next hp hc =>
          split at hh
          · cases hh
          · next y hy => exact .inl ⟨hp, y, hc, hy, by simpa using hh⟩
  · right
    split at hh
    · cases hh
    · next a ha =>
      simp only [Bool.and_eq_true, decide_eq_true_eq] at hh
      refine ⟨a, ha, ?_, hh.2⟩
      have h1 := hh.1
      cases c <;> simp only [usesB, Call.usesArena, beq_iff_eq, Bool.or_eq_true, List.any_eq_true, decide_eq_true_eq] at h1 ⊢ <;>
        first | exact h1 | cases h1

/-- What a thread does. -/
inductive Act where
  | start (t : Tid) (op : Op)
  | call (t : Tid) (r : Resp)
  | hook (t : Tid) (h : Hook) (rs : List Resp)
  | new (t : Tid) (p : Pool) (g : Rec)
  | noNew (t : Tid)
  | go (t : Tid)

def calmB (cfg : Cfg) (x : X) (c : Call) : Bool :=
  !cfg.calm || !decide (c = .arenasCreate) || x.ths.all fun t' => match x.s.th t' with
    | none => true
    | some f => match f.op with
      | .destroy .je _ => false
      | _ => true

def X.act (cfg : Cfg) (x : X) : Act → Option X
  | .start t op => match x.s.th t with
    | some _ => none
    | none => if legalB cfg x op then some ⟨{ x.s with
          th := update x.s.th t (some
            { op := op, made := op.pool.bind fun y => x.s.made y.2, prog := op.prog
              own := if op.ptr = 0 then [] else ((x.s.blk op.ptr).map (·.reg)).toList
              saved := x.s.blk op.ptr, refused := false, freeErr := none, nested := false })
          blk := blkStart x.s.blk op
          made := madeStart x.s.made op }, t :: x.ths, x.bs⟩ else none
  | .call t r => match x.s.th t with
    | none => none
    | some f => match f.prog with
      | .call c k => if validB x.s.tbb x.s.arena f.own c && answerB x t f.own c r && calmB cfg x c then
          some { x with s := { x.s with
            th := update x.s.th t (some { f with prog := k r, own := ownAfter f.own c r })
            tbb := c.tbbAfter x.s.tbb r
            arena := c.arenaAfter x.s.arena r
            stuck := c.stuckAfter x.s.stuck r
            mem := c.memAfter x.s.mem } } else none
      | _ => none
  | .hook t h rs => match x.s.th t with
    | none => none
    | some f => match f.prog with
      | .call c _ => if allowedB x.s f.own c h then
          match runH x.s.recs x.s.table h.prog (x.s.tls t) rs with
          | some (l, some _, tls) => some { x with s := { x.s with
              tls := update x.s.tls t tls
              th := update x.s.th t (some { f with
                refused := f.refused || (h.id.isSome && refusedIn l)
                freeErr := if h.id.isSome then (freeErrIn l).or f.freeErr else f.freeErr }) } }
          | _ => none
        else none
      | _ => none
  | .new t p g => match x.s.th t with
    | none => none
    | some f => match f.prog with
      | .newRec k => if x.s.used p = false ∧ p ≠ 0 then some { x with s := { x.s with
          th := update x.s.th t (some { f with prog := k (some p) })
          recs := update x.s.recs p (some g)
          used := update x.s.used p true } } else none
      | _ => none
  | .noNew t => match x.s.th t with
    | none => none
    | some f => match f.prog with
      | .newRec k => some { x with s := { x.s with th := update x.s.th t (some { f with prog := k none }) } }
      | _ => none
  | .go t => match x.s.th t with
    | none => none
    | some f => match f.prog with
      | .setTls v e k => some { x with s := { x.s with
          th := update x.s.th t (some { f with prog := k })
          tls := update x.s.tls t (update (x.s.tls t) v e) } }
      | .getTls v k => some { x with s := { x.s with th := update x.s.th t (some { f with prog := k (x.s.tls t v) }) } }
      | .setRec p r k => some { x with s := { x.s with
          th := update x.s.th t (some { f with prog := k })
          recs := update x.s.recs p (some r) } }
      | .getRec p k => match x.s.recs p with
        | none => none
        | some r => some { x with s := { x.s with th := update x.s.th t (some { f with prog := k r }) } }
      | .freeRec p k => some { x with s := { x.s with
          th := update x.s.th t (some { f with prog := k })
          recs := update x.s.recs p none } }
      | .setTab a v k => some { x with s := { x.s with
          th := update x.s.th t (some { f with prog := k })
          table := update x.s.table a v } }
      | .ret o => some ⟨{ x.s with
          th := update x.s.th t none
          blk := blkEnd x.s.blk f o
          made := madeEnd x.s.made f.op o
          last := if f.op.isLastError then x.s.last else update x.s.last t (some f) }, x.ths, o.val :: f.op.ptr :: x.bs⟩
      | _ => none

theorem th_update {s : St} {ths : List Tid} (hx : ∀ t, s.th t ≠ none → t ∈ ths) {t : Tid} {f : Frame} (h : s.th t = some f)
    {v : Option Frame} : ∀ t', update s.th t v t' ≠ none → t' ∈ ths := by
  intro t' ht'
  by_cases e : t' = t
  · subst e; exact hx _ (by rw [h]; simp)
  · rw [Function.update_of_ne e] at ht'; exact hx _ ht'

theorem act_sound {cfg : Cfg} {x y : X} (hx : x.Ok) {a : Act} (h : x.act cfg a = some y) :
    Step cfg x.s y.s ∧ y.Ok := by
  cases a with
  | start t op =>
    simp only [X.act] at h
    split at h
    · cases h
    · next ht =>
      split at h
      · next hl =>
        simp only [Option.some.injEq] at h
        subst h
        refine ⟨.start t op ht (legalB_sound hx hl), ?_, ?_⟩
        · intro t' h'
          by_cases e : t' = t
          · subst e; exact List.mem_cons_self
          · have h' : update x.s.th t _ t' ≠ none := h'
            rw [Function.update_of_ne e] at h'
            exact List.mem_cons_of_mem _ (hx.1 t' h')
        · intro q hq
          refine hx.2 q fun hn => hq ?_
          show blkStart x.s.blk op q = none
          unfold blkStart
          split
          · rw [hn]; rfl
          · split
            · rfl
            · exact hn
      · cases h
  | call t r =>
    simp only [X.act] at h
    split at h
    · cases h
    · next f ht =>
      split at h
      · next c k hp =>
        split at h
        · next hc =>
          simp only [Option.some.injEq] at h
          subst h
          simp only [Bool.and_eq_true] at hc
          refine ⟨.call t f c k r ht hp (validB_sound hc.1.1) (answerB_sound hx hc.1.2) ?_, th_update hx.1 ht, hx.2⟩
          intro hcalm hca t' f' p hf' hop
          have h2 := hc.2
          simp only [calmB, hcalm, hca, decide_true, Bool.not_true, Bool.false_or, List.all_eq_true] at h2
          have := h2 t' (hx.1 t' (by rw [hf']; simp))
          rw [hf'] at this
          dsimp only at this
          rw [hop] at this
          cases this
        · cases h
      · cases h
  | hook t hk rs =>
    simp only [X.act] at h
    split at h
    · cases h
    · next f ht =>
      split at h
      · next c k hp =>
        split at h
        · next hc =>
          split at h
          · next l o tls hr =>
            simp only [Option.some.injEq] at h
            subst h
            exact ⟨.hook t f c k hk l o tls ht hp (allowedB_sound hc) (runH_sound _ hr), th_update hx.1 ht, hx.2⟩
          · cases h
        · cases h
      · cases h
  | new t p g =>
    simp only [X.act] at h
    split at h
    · cases h
    · next f ht =>
      split at h
      · next k hp =>
        split at h
        · next hc =>
          simp only [Option.some.injEq] at h
          subst h
          exact ⟨.newRec t f k p g ht hp hc.1 hc.2, th_update hx.1 ht, hx.2⟩
        · cases h
      · cases h
  | noNew t =>
    simp only [X.act] at h
    split at h
    · cases h
    · next f ht =>
      split at h
      · next k hp =>
        simp only [Option.some.injEq] at h
        subst h
        exact ⟨.noRec t f k ht hp, th_update hx.1 ht, hx.2⟩
      · cases h
  | go t =>
    simp only [X.act] at h
    split at h
    · cases h
    · next f ht =>
      split at h
      · next v e k hp =>
        simp only [Option.some.injEq] at h
        subst h
        exact ⟨.setTls t f v e k ht hp, th_update hx.1 ht, hx.2⟩
      · next v k hp =>
        simp only [Option.some.injEq] at h
        subst h
        exact ⟨.getTls t f v k ht hp, th_update hx.1 ht, hx.2⟩
      · next p r k hp =>
        simp only [Option.some.injEq] at h
        subst h
        exact ⟨.setRec t f p r k ht hp, th_update hx.1 ht, hx.2⟩
      · next p k hp =>
        split at h
        · cases h
        · next r hr =>
          simp only [Option.some.injEq] at h
          subst h
          exact ⟨.getRec t f p r k ht hp hr, th_update hx.1 ht, hx.2⟩
      · next p k hp =>
        simp only [Option.some.injEq] at h
        subst h
        exact ⟨.freeRec t f p k ht hp, th_update hx.1 ht, hx.2⟩
      · next a v k hp =>
        simp only [Option.some.injEq] at h
        subst h
        exact ⟨.setTab t f a v k ht hp, th_update hx.1 ht, hx.2⟩
      · next o hp =>
        simp only [Option.some.injEq] at h
        subst h
        refine ⟨.ret t f o ht hp, th_update hx.1 ht, ?_⟩
        intro q hq
        by_contra hn
        simp only [List.mem_cons, not_or] at hn
        refine hn.2.2 (hx.2 q fun hz => hq ?_)
        show blkEnd x.s.blk f o q = none
        unfold blkEnd
        split
        · rw [if_neg (fun h => hn.1 h.2), if_neg (fun h => hn.2.1 h.2.2)]; exact hz
        · rw [if_neg (fun h => hn.2.1 h.2.2)]; exact hz
      · cases h

def X.acts (cfg : Cfg) : X → List Act → Option X
  | x, [] => some x
  | x, a :: as => match x.act cfg a with
    | some y => y.acts cfg as
    | none => none

theorem acts_sound {cfg : Cfg} : ∀ {as : List Act} {x y : X}, x.Ok → Reach cfg x.s → x.acts cfg as = some y →
    Reach cfg y.s
  | [], x, y, _, hr, h => by
    simp only [X.acts, Option.some.injEq] at h
    subst h
    exact hr
  | a :: as, x, y, hx, hr, h => by
    simp only [X.acts] at h
    split at h
    · next z hz =>
      obtain ⟨h1, h2⟩ := act_sound hx hz
      exact acts_sound h2 (hr.step h1) h
    · cases h

theorem acts_ok {cfg : Cfg} : ∀ {as : List Act} {x y : X}, x.Ok → x.acts cfg as = some y → y.Ok
  | [], x, y, hx, h => by
    simp only [X.acts, Option.some.injEq] at h
    subst h
    exact hx
  | a :: as, x, y, hx, h => by
    simp only [X.acts] at h
    split at h
    · next z hz => exact acts_ok (act_sound hx hz).2 h
    · cases h

/-- The first state. -/
def X.init (mem : Nat → Nat := fun _ => 0) : X where
  s := { recs := fun _ => none, table := fun _ => none, tbb := fun _ => none, arena := fun _ => none,
         stuck := fun _ => false, made := fun _ => none, blk := fun _ => none, mem := mem, th := fun _ => none,
         tls := fun _ _ => 0, used := fun _ => false, last := fun _ => none }
  ths := []
  bs := []

theorem init_ok {mem} : (X.init mem).Ok := ⟨fun _ h => absurd rfl h, fun _ h => absurd rfl h⟩

theorem acts_reach {cfg : Cfg} {as : List Act} {y : X} {mem} (h : (X.init mem).acts cfg as = some y) : Reach cfg y.s :=
  acts_sound init_ok (.init ⟨fun _ => rfl, fun _ => rfl, fun _ => rfl, fun _ => rfl, fun _ => rfl, fun _ => rfl,
    fun _ => rfl, fun _ => rfl, fun _ => rfl⟩) h

end Verif.Heap
