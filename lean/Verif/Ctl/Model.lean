/-!
# Model of the control interface (`src/ctl/ctl.c`, `src/ctl/ctl.h`)

A C string is the list of its characters before the terminating null character. Host memory suffices: `Strdup`, `Zalloc` and
`umf_ba_global_alloc` do not fail. `none` as the outcome of a function is undefined behaviour.
-/
namespace Verif.Ctl

/-! ## The C library -/

/-- `isspace` in the C locale. -/
def isSpace (c : Char) : Bool := c == ' ' || (9 ≤ c.toNat && c.toNat ≤ 13)

/-- One call of `strtok_r` with one separator on the rest `s` of the string: the offset of the token in `s`, the token
and the new rest. -/
def strtok (sep : Char) (s : List Char) : Option (Nat × List Char × List Char) :=
  let skip := (s.takeWhile (· == sep)).length
  let s' := s.drop skip
  if s' = [] then none
  else
    let t := s'.takeWhile (· != sep)
    some (skip, t, s'.drop (t.length + 1))

/-- All tokens of a string with their offsets, from repeated calls of `strtok_r`; `pos` is the offset of `s`. What
`strtok_r` returns does not depend on what the loops do with the tokens. -/
def tokens (sep : Char) : Nat → Nat → List Char → List (Nat × List Char)
  | 0, _, _ => []
  | fuel + 1, pos, s =>
    match strtok sep s with
    | none => []
    | some (o, t, rest) => (pos + o, t) :: tokens sep fuel (pos + o + t.length + 1) rest

/-- The tokens of a whole string. -/
def toks (sep : Char) (s : List Char) : List (Nat × List Char) := tokens sep (s.length + 1) 0 s

/-- The value of a digit of `strtol`. -/
def digit (c : Char) : Option Nat :=
  if '0' ≤ c ∧ c ≤ '9' then some (c.toNat - 48)
  else if 'a' ≤ c ∧ c ≤ 'z' then some (c.toNat - 87)
  else if 'A' ≤ c ∧ c ≤ 'Z' then some (c.toNat - 55)
  else none

/-- The digits at the beginning of a text. -/
def digits (base : Nat) : List Char → List Nat
  | [] => []
  | c :: t => match digit c with
    | some d => if d < base then d :: digits base t else []
    | none => []

/-- The value of a list of digits. -/
def value (base : Nat) (ds : List Nat) : Nat := ds.foldl (fun a d => a * base + d) 0

/-- The base and what follows the prefix, for base 0. -/
def prefixOf (s : List Char) : Nat × List Char :=
  match s with
  | '0' :: x :: t =>
    if (x = 'x' ∨ x = 'X') ∧ digits 16 t ≠ [] then (16, t) else (8, '0' :: x :: t)
  | '0' :: [] => (8, ['0'])
  | s => (10, s)

/-- The sign and what follows it. -/
def signOf (s : List Char) : Bool × List Char :=
  match s with
  | '-' :: t => (true, t)
  | '+' :: t => (false, t)
  | s => (false, s)

/-- `strtol` and `strtoll` with base 0 on a 64-bit machine. `none`: no conversion (`endptr == str`). Otherwise the value,
and whether it is out of range (`ERANGE`). -/
def strtoll (s : List Char) : Option (Int × Bool) :=
  let (neg, s) := signOf (s.dropWhile isSpace)
  let (base, s) := prefixOf s
  let ds := digits base s
  if ds = [] then none
  else
    let v : Int := if neg then -(value base ds : Int) else (value base ds : Int)
    if v < -2 ^ 63 then some (-2 ^ 63, true)
    else if 2 ^ 63 ≤ v then some (2 ^ 63 - 1, true)
    else some (v, false)

/-! ## Arguments -/

/-- The parsers of `ctl.c:618-686`. -/
inductive Parser where
  | boolean | integer | string
deriving DecidableEq

/-- What a parser stores. -/
inductive Val where
  | int (v : Int)
  | str (s : List Char)
deriving DecidableEq

/-- `struct ctl_argument_parser`, `ctl.h:67-71`. -/
structure Field where
  off : Nat
  size : Nat
  parser : Parser
deriving DecidableEq

/-- `ctl_parse_ll`, `ctl.c:605-616`; -2^63 is `LLONG_MIN`. -/
def parseLl (s : List Char) : Int :=
  match strtoll s with
  | some (v, false) => v
  | _ => -2 ^ 63

/-- `ctl_arg_boolean`, `ctl.c:622-638`. The string is not empty here: it is a token (an empty string has the first
character 0, which is refused too). -/
def argBoolean (s : List Char) : Option Val :=
  match s with
  | c :: _ =>
    if c = 'y' ∨ c = 'Y' ∨ c = '1' then some (.int 1)
    else if c = 'n' ∨ c = 'N' ∨ c = '0' then some (.int 0)
    else none
  | [] => none

/-- `ctl_arg_integer`, `ctl.c:643-671`. -/
def argInteger (s : List Char) (size : Nat) : Option Val :=
  let v := parseLl s
  if v = -2 ^ 63 then none
  else if size = 4 then (if v > 2 ^ 31 - 1 ∨ v < -2 ^ 31 then none else some (.int v))
  else if size = 8 then some (.int v)
  else if size = 1 then (if v > 255 ∨ v < 0 then none else some (.int v))
  else none

/-- `ctl_arg_string`, `ctl.c:677-686`. -/
def argString (s : List Char) (size : Nat) : Option Val :=
  if size ≤ s.length then none else some (.str s)

/-- A call of a parser. -/
def parse (f : Field) (s : List Char) : Option Val :=
  match f.parser with
  | .boolean => argBoolean s
  | .integer => argInteger s f.size
  | .string => argString s f.size

/-- The loop of `ctl_parse_args`, `ctl.c:222-236`: the values stored, with their offsets. -/
def parseFields : List Field → List (List Char) → Option (List (Nat × Val))
  | [], _ => some []
  | _ :: _, [] => none
  | f :: fs, t :: ts =>
    match parse f t with
    | none => none
    | some v => (parseFields fs ts).map ((f.off, v) :: ·)

/-- `ctl_parse_args`, `ctl.c:216-242`. -/
def parseArgs (proto : List Field) (arg : List Char) : Option (List (Nat × Val)) :=
  parseFields proto ((toks ',' arg).map Prod.snd)

/-! ## Trees -/

/-- `umf_ctl_query_type_t` as far as callers use it, `base.h:55-62`. -/
inductive QType where
  | read | write | run
deriving DecidableEq

/-- `umf_ctl_node_t`, `ctl.h:87-95`, as made by the macros `ctl.h:146-227`. `H`: the handlers. Leaves and subtrees have no
children (a null pointer). The end marker of an array is the end of the list. -/
inductive Node (H : Type) where
  | named (name : List Char) (children : List (Node H))
  | indexed (name : List Char) (children : List (Node H))
  | leaf (name : List Char) (cb : QType → Option H) (arg : List Field)
  | subtree (name : List Char) (cb : Option H)

/-- `n->name`. -/
def Node.name {H : Type} : Node H → List Char
  | .named n _ | .indexed n _ | .leaf n _ _ | .subtree n _ => n

/-- `n->children`; `none`: a null pointer. -/
def Node.children {H : Type} : Node H → Option (List (Node H))
  | .named _ c | .indexed _ c => some c
  | .leaf .. | .subtree .. => none

def Node.isIndexed {H : Type} : Node H → Bool
  | .indexed .. => true
  | _ => false

def Node.isSubtree {H : Type} : Node H → Bool
  | .subtree .. => true
  | _ => false

/-- An entry of the list of indexes, `ctl.h:31-35`. -/
structure Index where
  name : List Char
  value : Int
deriving DecidableEq

/-- The inner loop of `ctl_find_node`, `ctl.c:163-169`. -/
def scan {H : Type} (nodes : List (Node H)) (tok : List Char) (isIndex : Bool) : Option (Node H) :=
  nodes.find? fun n => (isIndex && n.isIndexed) || n.name == tok

/-- The outer loop of `ctl_find_node`, `ctl.c:139-181`. `nodes`: `none` is a null pointer. The result is the node with
`*name_offset`, or no node. The index entries are prepended to the parameter of the function, which is the function's own
copy of the pointer: the caller does not see them (`ctl.c:160`). The second component are the entries allocated. -/
def findLoop {H : Type} : List (Nat × List Char) → Option (List (Node H)) → Option (Node H) → Nat → List Index →
    Option (Option (Node H × Nat) × List Index)
  | [], _, n, off, ix => some (n.map (·, off), ix)
  | (o, tok) :: ts, nodes, n, _, ix =>
    if (n.map Node.isSubtree).getD false then some (n.map (·, o), ix)
    else
      let index := (strtoll tok).map Prod.fst
      match nodes with
      | none => none
      | some nodes =>
        match scan nodes tok index.isSome with
        | none => some (none, (index.map (Index.mk [] ·)).toList ++ ix)
        | some m => findLoop ts m.children (some m) o ((index.map (Index.mk m.name ·)).toList ++ ix)

/-- `ctl_find_node`, `ctl.c:122-191`. -/
def findNode {H : Type} (nodes : List (Node H)) (name : List Char) :
    Option (Option (Node H × Nat) × List Index) :=
  findLoop (toks '.' name) (some nodes) none 0 []

/-! ## Queries -/

/-- Where a query comes from, with its argument, `ctl.h:37-45`: `none` is a null pointer. -/
inductive Source where
  | program (arg : Option Nat)
  | config (value : List Char)
deriving DecidableEq

/-- The argument a handler gets. -/
inductive Arg where
  | null
  | ptr (p : Nat)
  | text (s : List Char)
  | parsed (vals : List (Nat × Val))
deriving DecidableEq

/-- The argument as it is passed on. -/
def Source.raw : Source → Arg
  | .program none => .null
  | .program (some p) => .ptr p
  | .config s => .text s

/-- A call of a handler. `indexes`: the list without its first, empty entry; `none`: a null pointer. `type = none`:
`MAX_CTL_QUERY_TYPE`. -/
structure Call (H : Type) where
  handler : H
  arg : Arg
  indexes : Option (List Index)
  extra : Option (List Char)
  type : Option QType
deriving DecidableEq

/-- The outcome of a query: result, calls of handlers, and index entries that are never freed. -/
structure Out (H : Type) where
  ret : Int
  calls : List (Call H)
  leaked : List Index

/-- The argument of a leaf, `ctl_query_get_real_args` (`ctl.c:248-263`) and the checks of
`ctl_exec_query_read`, `_write` and `_runnable` (`ctl.c:288-350`). `none`: the query fails. -/
def realArg (t : QType) (src : Source) (proto : List Field) : Option Arg :=
  match t, src with
  | .run, src => some src.raw
  | _, .program none => none
  | .read, src => some src.raw
  | .write, .program (some p) => some (.ptr p)
  | .write, .config s => (parseArgs proto s).map .parsed

/-- `ctl_query` after the node is found, `ctl.c:408-427`. `run`: the results of the handlers. -/
def exec {H : Type} (run : Call H → Int) (found : Option (Node H × Nat)) (indexes : Option (List Index)) (src : Source)
    (name : List Char) (t : QType) (leaked : List Index) : Out H :=
  match found with
  | some (.leaf _ cb proto, _) =>
    match cb t with
    | none => ⟨-1, [], leaked⟩
    | some h => match realArg t src proto with
      | none => ⟨-1, [], leaked⟩
      | some a =>
        let c : Call H := ⟨h, a, indexes, none, none⟩
        ⟨run c, [c], leaked⟩
  | some (.subtree _ (some h), off) =>
    let c : Call H := ⟨h, src.raw, indexes, some (name.drop off), some t⟩
    ⟨run c, [c], leaked⟩
  | _ => ⟨-1, [], leaked⟩

/-- `ctl_query`, `ctl.c:382-428`, with the global tree and the tree of `ctl`. -/
def query {H : Type} (run : Call H → Int) (glob : List (Node H)) (ctl : Option (List (Node H))) (src : Source)
    (name : List Char) (t : QType) : Option (Out H) :=
  match findNode glob name with
  | none => none
  | some (some n, ix) => some (exec run (some n) (some []) src name t ix)
  | some (none, ix) =>
    match ctl with
    | none => some (exec run none (some []) src name t ix)
    | some root => match findNode root name with
      | none => none
      | some (n, ix') => some (exec run n none src name t (ix' ++ ix))

/-! ## Configurations -/

/-- `ctl_parse_query`, `ctl.c:448-471`. -/
def parseQuery (q : List Char) : Option (List Char × List Char) :=
  match toks '=' q with
  | [(_, name), (_, val)] => some (name, val)
  | _ => none

/-- The loop of `ctl_load_config`, `ctl.c:482-497`; `strict`: `ctx` is not null. -/
def loadLoop {H : Type} (run : Call H → Int) (glob : List (Node H)) (ctl : Option (List (Node H))) (strict : Bool) :
    List (List Char) → Option (Out H)
  | [] => some ⟨0, [], []⟩
  | q :: qs =>
    match parseQuery q with
    | none => some ⟨-1, [], []⟩
    | some (name, val) =>
      match query run glob ctl (.config val) name .write with
      | none => none
      | some r =>
        if r.ret < 0 ∧ strict then some ⟨-1, r.calls, r.leaked⟩
        else (loadLoop run glob ctl strict qs).map fun r' => ⟨r'.ret, r.calls ++ r'.calls, r'.leaked ++ r.leaked⟩

/-- `ctl_load_config_from_string`, `ctl.c:505-516`, with `ctl_load_config` (476-500). -/
def loadString {H : Type} (run : Call H → Int) (glob : List (Node H)) (ctl : Option (List (Node H))) (strict : Bool)
    (s : List Char) : Option (Out H) :=
  loadLoop run glob ctl strict ((toks ';' s).map Prod.snd)

/-- The loop that reads a file, `ctl.c:557-568`: what is put into the buffer. -/
def stripLoop : Bool → List Char → List Char
  | _, [] => []
  | comment, c :: t =>
    if c = '#' then stripLoop true t
    else if c = '\n' then stripLoop false t
    else if !comment && !isSpace c then c :: stripLoop comment t
    else stripLoop comment t

/-- `ctl_load_config_from_file`, `ctl.c:525-581`, for a file that can be read and has the contents `file`. The buffer is a C
string, so it ends at the first null character. -/
def loadFile {H : Type} (run : Call H → Int) (glob : List (Node H)) (ctl : Option (List (Node H))) (strict : Bool)
    (file : List Char) : Option (Out H) :=
  if 2 ^ 20 < file.length then some ⟨-1, [], []⟩
  else loadString run glob ctl strict ((stripLoop false file).takeWhile (· != '\x00'))

/-! ## The API -/

/-- Results of `umfCtlGet`, `umfCtlSet` and `umfCtlExec`. -/
inductive Res where
  | success | invalid | unknown
deriving DecidableEq

/-- `umfCtlGet`, `umfCtlSet`, `umfCtlExec`, `ctl.c:84-112`. `name = none`, `arg = none`: null pointers; `ctx`: whether the
context is a null pointer. -/
def umfCtl {H : Type} (run : Call H → Int) (glob : List (Node H)) (t : QType) (name : Option (List Char)) (ctxNull : Bool)
    (arg : Option Nat) : Option (Res × List (Call H)) :=
  match name, arg with
  | some name, some p =>
    if ctxNull then some (.invalid, [])
    else (query run glob none (.program (some p)) name t).map fun r =>
      (if r.ret ≠ 0 then .unknown else .success, r.calls)
  | _, _ => some (.invalid, [])

/-! ## The trees of the library -/

/-- The handlers of `memory_provider.c:24-33`, `memory_pool.c:25-35`, `provider_os_memory.c:177-250` and
`pool_scalable.c:414-427`. -/
inductive Handler where
  | byHandleProvider | byHandlePool
  | ipcEnabled | peakMemory | allocatedMemory | reset
  | trackingEnabled
deriving DecidableEq

/-- `CTL_LEAF_RO`, `ctl.h:169-177`. -/
def leafRo (name : String) (h : Handler) : Node Handler :=
  .leaf name.toList (fun t => if t = .read then some h else none) []

/-- `CTL_LEAF_RUNNABLE`, `ctl.h:191-199`. -/
def leafRun (name : String) (h : Handler) : Node Handler :=
  .leaf name.toList (fun t => if t = .run then some h else none) []

/-- The global tree, `libumf.c:30-33`, `memory_provider.c:35-36`, `memory_pool.c:37-38`. -/
def globalTree : List (Node Handler) :=
  [.named "umf".toList
    [.named "provider".toList [.subtree "by_handle".toList (some .byHandleProvider)],
     .named "pool".toList [.subtree "by_handle".toList (some .byHandlePool)]]]

/-- The tree of the OS provider, `provider_os_memory.c:252-263`. -/
def osTree : List (Node Handler) :=
  [.named "params".toList [leafRo "ipc_enabled" .ipcEnabled],
   .named "stats".toList
    [leafRo "allocated_memory" .allocatedMemory, leafRo "peak_memory" .peakMemory, leafRun "reset" .reset]]

/-- The tree of the scalable pool, `pool_scalable.c:429-435`. -/
def scalableTree : List (Node Handler) :=
  [.named "params".toList [leafRo "tracking_enabled" .trackingEnabled]]

/-- What the context of a handler points to: a provider handle, a pool handle, or the private data of an OS provider. -/
inductive Ctx where
  | provider (id : Nat)
  | pool (id : Nat)
  | osPriv (id : Nat)
deriving DecidableEq

/-- What kind of provider or pool a handle stands for: the `ctl` function of its operations. `custom`: a function of the
user with this result; `none`: the default function of `memory_provider.c:111-120` and `memory_pool.c:40-50`. -/
inductive CtlOp where
  | os
  | scalable
  | custom (ret : Int)
  | none
deriving DecidableEq

/-- What is done to a provider or pool: the function of a leaf is run on it with the pointer of the caller, or the function of
the user is called with the rest of the name. -/
inductive Effect where
  | handled (h : Handler) (on : Ctx) (arg : Arg)
  | custom (on : Ctx) (name : List Char) (arg : Arg) (t : QType)
deriving DecidableEq

/-- The result of the handlers of subtrees, `memory_provider.c:30-32` and `memory_pool.c:32-34`: that of the `ctl` function is
ignored. -/
def byHandleRet (_ : Int) : Int := 0

/-- The effects of a list of calls of handlers, one after the other. -/
def effects (f : Call Handler → Option (Int × List Effect)) (calls : List (Call Handler)) : Option (List Effect) :=
  calls.foldl (fun acc c => acc.bind fun es => (f c).map fun r => es ++ r.2) (some [])

/-- The result of a handler for `query`. -/
def result (f : Call Handler → Option (Int × List Effect)) (c : Call Handler) : Int := ((f c).map Prod.fst).getD 0

/-- The argument of the `ctl` function as a pointer. -/
def Arg.toPtr : Arg → Option Nat
  | .ptr p => some p
  | _ => none

/-- `os_ctl` (`provider_os_memory.c:1531-1538`) and `pool_ctl` (`pool_scalable.c:437-444`), called by the handler of a
subtree; `f`: the handlers with the new context. -/
def subQuery (f : Call Handler → Option (Int × List Effect)) (tree : List (Node Handler)) (arg : Arg) (name : List Char)
    (t : QType) : Option (Int × List Effect) :=
  match query (result f) globalTree (some tree) (.program arg.toPtr) name t with
  | none => none
  | some r => (effects f r.calls).map fun es => (byHandleRet r.ret, es)

/-- A handler with its context: result and effects. The handlers of leaves return 0. `none`: undefined behaviour, or the
context does not point to what the handler takes it for. `op`: the `ctl` function of each handle. -/
def runHandler (op : Ctx → CtlOp) : Nat → Ctx → Call Handler → Option (Int × List Effect)
  | 0, _, _ => none
  | fuel + 1, ctx, c =>
    match c.handler, ctx with
    | .byHandleProvider, .provider id =>
      match op (.provider id), c.extra, c.type with
      | .os, some name, some t => subQuery (runHandler op fuel (.osPriv id)) osTree c.arg name t
      | .custom ret, some name, some t => some (byHandleRet ret, [.custom (.provider id) name c.arg t])
      | _, _, _ => some (byHandleRet 1, [])
    | .byHandlePool, .pool id =>
      match op (.pool id), c.extra, c.type with
      | .scalable, some name, some t => subQuery (runHandler op fuel (.pool id)) scalableTree c.arg name t
      | .custom ret, some name, some t => some (byHandleRet ret, [.custom (.pool id) name c.arg t])
      | _, _, _ => some (byHandleRet 1, [])
    | .ipcEnabled, .osPriv id => some (0, [.handled .ipcEnabled (.osPriv id) c.arg])
    | .peakMemory, .osPriv id => some (0, [.handled .peakMemory (.osPriv id) c.arg])
    | .allocatedMemory, .osPriv id => some (0, [.handled .allocatedMemory (.osPriv id) c.arg])
    | .reset, .osPriv id => some (0, [.handled .reset (.osPriv id) c.arg])
    | .trackingEnabled, .pool id => some (0, [.handled .trackingEnabled (.pool id) c.arg])
    | _, _ => none

/-- A call of the API on a handle of the library, with all that follows. `none`: undefined behaviour. A name of `n` characters
leads to less than `n` nested calls. -/
def umfCtlFull (op : Ctx → CtlOp) (t : QType) (name : List Char) (ctx : Ctx) (arg : Nat) : Option (Res × List Effect) :=
  let f := runHandler op (name.length + 2) ctx
  match umfCtl (result f) globalTree t (some name) false (some arg) with
  | none => none
  | some (r, calls) => (effects f calls).map fun es => (r, es)

end Verif.Ctl
