import Verif.Ctl.Model
/-!
# Control queries and configurations in memory (`src/ctl/ctl.c`)

`Verif.Ctl` treats strings as lists and says that `strtok_r` splits them. Here the strings are bytes in blocks of memory:
`strtok_r` writes null characters into them, the three levels of splitting (`;`, `=`, `,`) work in the same buffer, and the
temporary blocks come from an allocator that may refuse. `none` as the outcome of a function is undefined behaviour: using a
block that is not allocated, reading or writing outside of a block, or following a null pointer.

Simplifications: a handler does not allocate memory that it keeps, and the only memory of the library that it may write is
the text of a value that it is given; memory that is allocated and not yet written is not told apart from memory that is.
-/
namespace Verif.CtlMem
open Verif.Ctl (Node Call Field Val QType Index Arg isSpace strtoll)
variable {H : Type}

/-- The null character. -/
def nul : Char := '\x00'

/-- A block of memory: bytes, an entry of a list of indexes (`ctl.h:31-35`), or an argument structure of `size` bytes with
the fields stored in it (`ctl.c:217`). -/
inductive Blk where
  | bytes (l : List Char)
  | entry (i : Index) (next : Option Nat)
  | dest (size : Nat) (vals : List (Nat × Val))

/-- The state: the blocks, how often the allocator has been called, the calls of handlers so far, and the number of files
that are open. -/
structure Mem (H : Type) where
  heap : Nat → Option Blk
  cnt : Nat
  calls : List (Call H)
  files : Nat

/-- What is outside of the library: whether the allocator grants its `k`-th call, the results of the handlers, what they
write over the text they are given (`none`: they leave the character), and the size of the argument structure of a handler
(`dest_size` of `struct ctl_argument`, `ctl.h:73-76`). -/
structure World (H : Type) where
  ok : Nat → Bool
  run : Call H → Int
  scribble : Call H → Nat → Option Char
  dsize : H → Nat

/-- A change of one place of a map. -/
def upd {α : Type} (f : Nat → α) (k : Nat) (v : α) : Nat → α := fun x => if x = k then v else f x

/-! ## Memory -/

/-- The bytes of a block. -/
def bytes (m : Mem H) (b : Nat) : Option (List Char) :=
  match m.heap b with
  | some (.bytes l) => some l
  | _ => none

/-- `umf_ba_global_alloc`, with what is then stored in the block. `none`: refused. -/
def alloc (w : World H) (m : Mem H) (k : Blk) : Mem H × Option Nat :=
  if w.ok m.cnt then ({ m with heap := upd m.heap m.cnt (some k), cnt := m.cnt + 1 }, some m.cnt)
  else ({ m with cnt := m.cnt + 1 }, none)

/-- `umf_ba_global_free` of a pointer that is not null. -/
def free (m : Mem H) (b : Nat) : Option (Mem H) :=
  match m.heap b with
  | some _ => some { m with heap := upd m.heap b none }
  | none => none

/-- A change of the bytes of a block. -/
def setBytes (m : Mem H) (b : Nat) (l : List Char) : Mem H := { m with heap := upd m.heap b (some (.bytes l)) }

/-- The null-terminated string at the beginning of these bytes. -/
def cstr : List Char → Option (List Char)
  | [] => none
  | c :: t => if c = nul then some [] else (cstr t).map (c :: ·)

/-- The string a pointer points to: block and offset. -/
def str (m : Mem H) (p : Nat × Nat) : Option (List Char) := (bytes m p.1).bind fun l => cstr (l.drop p.2)

/-- `Strdup`, `ctl.c:75-82`. -/
def strdup (w : World H) (m : Mem H) (p : Nat × Nat) : Option (Mem H × Option Nat) :=
  (str m p).map fun s => alloc w m (.bytes (s ++ [nul]))

/-! ## strtok_r -/

/-- `strspn` with one separator. -/
def spn (sep : Char) : List Char → Option Nat
  | [] => none
  | c :: t => if c = sep then (spn sep t).map (· + 1) else some 0

/-- `strcspn` with one separator. -/
def cspn (sep : Char) : List Char → Option Nat
  | [] => none
  | c :: t => if c = sep ∨ c = nul then some 0 else (cspn sep t).map (· + 1)

/-- `strtok_r` on the bytes of a block, from the offset `p`: the bytes, the token and the saved offset. -/
def strtokB (l : List Char) (sep : Char) (p : Nat) : Option (List Char × Option Nat × Nat) :=
  (spn sep (l.drop p)).bind fun k =>
    (l[p + k]?).bind fun c =>
      if c = nul then some (l, none, p + k)
      else (cspn sep (l.drop (p + k))).bind fun j =>
        (l[p + k + j]?).bind fun e =>
          if e = nul then some (l, some (p + k), p + k + j)
          else some (l.set (p + k + j) nul, some (p + k), p + k + j + 1)

/-- `strtok_r` in the block `b`. -/
def strtok (m : Mem H) (b : Nat) (sep : Char) (p : Nat) : Option (Mem H × Option Nat × Nat) :=
  (bytes m b).bind fun l => (strtokB l sep p).map fun r => (setBytes m b r.1, r.2.1, r.2.2)

/-! ## Names -/

/-- `n->name` is stored in the index entry, `ctl.c:175-177`. -/
def nameEntry (m : Mem H) (e : Nat) (name : List Char) : Option (Mem H) :=
  match m.heap e with
  | some (.entry i nx) => some { m with heap := upd m.heap e (some (.entry { i with name := name } nx)) }
  | _ => none

/-- The loop of `ctl_find_node`, `ctl.c:139-181`. `ps`: `parse_str`; `node`: `node_name`; `ix`: the function's own copy of
`indexes`. The first argument bounds the number of rounds; the loop never reaches it. -/
def findLoop (w : World H) (ps : Nat) : Nat → Mem H → Option Nat → Nat → Option (List (Node H)) → Option (Node H) → Nat →
    Option Nat → Option (Mem H × Option (Node H × Nat))
  | 0, _, _, _, _, _, _, _ => none
  | _ + 1, m, none, _, _, n, off, _ => some (m, n.map (·, off))
  | fuel + 1, m, some p, save, nodes, n, _, ix =>
    if (n.map Node.isSubtree).getD false then some (m, n.map (·, p))
    else
      (str m (ps, p)).bind fun tok =>
        match (strtoll tok).map Prod.fst with
        | some v =>
          match alloc w m (.entry ⟨[], v⟩ ix) with
          | (m, none) => some (m, none)
          | (m, some e) =>
            match nodes with
            | none => none
            | some nodes => match Ctl.scan nodes tok true with
              | none => some (m, none)
              | some k =>
                (nameEntry m e k.name).bind fun m =>
                  (strtok m ps '.' save).bind fun r => findLoop w ps fuel r.1 r.2.1 r.2.2 k.children (some k) p (some e)
        | none =>
          match nodes with
          | none => none
          | some nodes => match Ctl.scan nodes tok false with
            | none => some (m, none)
            | some k => (strtok m ps '.' save).bind fun r => findLoop w ps fuel r.1 r.2.1 r.2.2 k.children (some k) p ix

/-- `ctl_find_node`, `ctl.c:122-191`: the node and `*name_offset`. -/
def findNode (w : World H) (m : Mem H) (nodes : List (Node H)) (name : Nat × Nat) (ix : Option Nat) :
    Option (Mem H × Option (Node H × Nat)) :=
  (strdup w m name).bind fun
    | (m, none) => some (m, none)
    | (m, some ps) =>
      (bytes m ps).bind fun l =>
        (strtok m ps '.' 0).bind fun r =>
          (findLoop w ps (l.length + 1) r.1 r.2.1 r.2.2 (some nodes) none 0 ix).bind fun r => (free r.1 ps).map (·, r.2)

/-- `ctl_delete_indexes`, `ctl.c:199-210`. The first argument bounds the length of the list. -/
def deleteIndexes : Nat → Mem H → Option Nat → Option (Mem H)
  | _, m, none => some m
  | 0, _, some _ => none
  | fuel + 1, m, some e =>
    match m.heap e with
    | some (.entry _ nx) => (free m e).bind fun m => deleteIndexes fuel m nx
    | _ => none

/-- The list of indexes as a handler sees it, from an entry on. -/
def readIndexes : Nat → Mem H → Option Nat → Option (List Index)
  | _, _, none => some []
  | 0, _, some _ => none
  | fuel + 1, m, some e =>
    match m.heap e with
    | some (.entry i nx) => (readIndexes fuel m nx).map (i :: ·)
    | _ => none

/-! ## Arguments -/

/-- How many bytes the parser of a field writes: `int` (`ctl.c:622-638`), `dest_size` (643-686). -/
def width (f : Field) : Nat :=
  match f.parser with
  | .boolean => 4
  | .integer | .string => f.size

/-- A parser stores its value in the argument structure. -/
def store (m : Mem H) (d : Nat) (f : Field) (v : Val) : Option (Mem H) :=
  match m.heap d with
  | some (.dest size vals) =>
    if f.off + width f ≤ size then some { m with heap := upd m.heap d (some (.dest size (vals ++ [(f.off, v)]))) }
    else none
  | _ => none

/-- The loop of `ctl_parse_args`, `ctl.c:224-236`. The result: whether all fields are parsed. -/
def parseLoop (d vb : Nat) : List Field → Mem H → Option Nat → Nat → Option (Mem H × Bool)
  | [], m, _, _ => some (m, true)
  | _ :: _, m, none, _ => some (m, false)
  | f :: fs, m, some p, save =>
    (str m (vb, p)).bind fun tok =>
      match Ctl.parse f tok with
      | none => some (m, false)
      | some v => (store m d f v).bind fun m =>
        (strtok m vb ',' save).bind fun r => parseLoop d vb fs r.1 r.2.1 r.2.2

/-- `ctl_parse_args`, `ctl.c:216-242`: the argument structure, or a null pointer. -/
def parseArgs (w : World H) (m : Mem H) (size : Nat) (proto : List Field) (v : Nat × Nat) : Option (Mem H × Option Nat) :=
  match alloc w m (.dest size []) with
  | (m, none) => some (m, none)
  | (m, some d) =>
    (strtok m v.1 ',' v.2).bind fun r =>
      (parseLoop d v.1 proto r.1 r.2.1 r.2.2).bind fun
        | (m, true) => some (m, some d)
        | (m, false) => (free m d).map (·, none)

/-! ## Queries -/

/-- Where a query comes from, with its argument, `ctl.h:37-45`: a pointer of the program (`none`: null), or the place of the
text of a value. -/
inductive Src where
  | program (arg : Option Nat)
  | config (v : Nat × Nat)
deriving DecidableEq

/-- The argument as the handler sees it. -/
def raw (m : Mem H) : Src → Option Arg
  | .program none => some .null
  | .program (some p) => some (.ptr p)
  | .config v => (str m v).map .text

/-- What a handler writes over a text of length `n` at `p`. -/
def overwrite (l : List Char) (p n : Nat) (f : Nat → Option Char) : List Char :=
  l.mapIdx fun i c => if p ≤ i ∧ i < p + n then (f (i - p)).getD c else c

/-- The call of a handler: it is noted, and the handler may write over the text of its argument. -/
def callH (w : World H) (m : Mem H) (c : Call H) (src : Src) : Option (Mem H × Int) :=
  match c.arg, src with
  | .text s, .config v =>
    (bytes m v.1).map fun l =>
      ({ setBytes m v.1 (overwrite l v.2 s.length (w.scribble c)) with calls := m.calls ++ [c] }, w.run c)
  | _, _ => some ({ m with calls := m.calls ++ [c] }, w.run c)

/-- The list of indexes that a handler is given: without its first, empty entry; `none`: a null pointer. -/
def seenIndexes (m : Mem H) (ix : Option Nat) : Option (Option (List Index)) :=
  match ix with
  | none => some none
  | some e => (readIndexes (m.cnt + 1) m (some e)).map fun l => some (l.drop 1)

/-- A leaf or a subtree is called with its argument as it is. -/
def callRaw (w : World H) (m : Mem H) (h : H) (src : Src) (ix : Option Nat) (extra : Option (List Char))
    (t : Option QType) : Option (Mem H × Int) :=
  (raw m src).bind fun a => (seenIndexes m ix).bind fun l => callH w m ⟨h, a, l, extra, t⟩ src

/-- `ctl_exec_query_write`, `ctl.c:310-335`, for a value of a configuration, with `ctl_query_get_real_args` (248-263) and
`ctl_query_cleanup_real_args` (269-283). -/
def callParsed (w : World H) (m : Mem H) (h : H) (proto : List Field) (v : Nat × Nat) (ix : Option Nat) :
    Option (Mem H × Int) :=
  (parseArgs w m (w.dsize h) proto v).bind fun
    | (m, none) => some (m, -1)
    | (m, some d) =>
      match m.heap d with
      | some (.dest _ vals) =>
        (seenIndexes m ix).bind fun l =>
          (callH w m ⟨h, .parsed vals, l, none, none⟩ (.config v)).bind fun r => (free r.1 d).map (·, r.2)
      | _ => none

/-- `ctl_query` after the search, `ctl.c:408-424`, with `ctl_exec_query_read`, `_write`, `_runnable` and `_subtree`
(288-363). -/
def exec (w : World H) (m : Mem H) (found : Option (Node H × Nat)) (ix : Option Nat) (src : Src) (name : Nat × Nat)
    (t : QType) : Option (Mem H × Int) :=
  match found with
  | some (.leaf _ cb proto, _) =>
    match cb t with
    | none => some (m, -1)
    | some h =>
      match t, src with
      | .run, src => callRaw w m h src ix none none
      | _, .program none => some (m, -1)
      | .write, .config v => callParsed w m h proto v ix
      | _, src => callRaw w m h src ix none none
  | some (.subtree _ (some h), off) =>
    (str m (name.1, name.2 + off)).bind fun extra => callRaw w m h src ix (some extra) (some t)
  | _ => some (m, -1)

/-- `ctl_query`, `ctl.c:382-428`. -/
def query (w : World H) (glob : List (Node H)) (ctl : Option (List (Node H))) (m : Mem H) (src : Src) (name : Nat × Nat)
    (t : QType) : Option (Mem H × Int) :=
  match alloc w m (.entry ⟨[], 0⟩ none) with
  | (m, none) => some (m, -1)
  | (m, some ix) =>
    (findNode w m glob name (some ix)).bind fun
      | (m, some n) =>
        (exec w m (some n) (some ix) src name t).bind fun r => (deleteIndexes (r.1.cnt + 1) r.1 (some ix)).map (·, r.2)
      | (m, none) =>
        match ctl with
        | none =>
          (exec w m none (some ix) src name t).bind fun r => (deleteIndexes (r.1.cnt + 1) r.1 (some ix)).map (·, r.2)
        | some root =>
          (deleteIndexes (m.cnt + 1) m (some ix)).bind fun m =>
            (findNode w m root name none).bind fun r =>
              (exec w r.1 r.2 none src name t).bind fun r => (deleteIndexes (r.1.cnt + 1) r.1 none).map (·, r.2)

/-! ## Configurations -/

/-- `ctl_parse_query`, `ctl.c:448-471`: name and value. -/
def parseQuery (m : Mem H) (b p : Nat) : Option (Mem H × Option (Nat × Nat)) :=
  (strtok m b '=' p).bind fun
    | (m, none, _) => some (m, none)
    | (m, some name, save) =>
      (strtok m b '=' save).bind fun
        | (m, none, _) => some (m, none)
        | (m, some val, save) =>
          (strtok m b '=' save).map fun
            | (m, none, _) => (m, some (name, val))
            | (m, some _, _) => (m, none)

/-- The loop of `ctl_load_config`, `ctl.c:482-499`; `strict`: `ctx` is not null. The first argument bounds the number of
rounds; the loop never reaches it. -/
def loadLoop (w : World H) (glob : List (Node H)) (ctl : Option (List (Node H))) (strict : Bool) (b : Nat) :
    Nat → Mem H → Option Nat → Nat → Option (Mem H × Int)
  | 0, _, _, _ => none
  | _ + 1, m, none, _ => some (m, 0)
  | fuel + 1, m, some p, save =>
    (parseQuery m b p).bind fun
      | (m, none) => some (m, -1)
      | (m, some (name, val)) =>
        (query w glob ctl m (.config (b, val)) (b, name) .write).bind fun r =>
          if r.2 < 0 ∧ strict then some (r.1, -1)
          else (strtok r.1 b ';' save).bind fun r => loadLoop w glob ctl strict b fuel r.1 r.2.1 r.2.2

/-- `ctl_load_config`, `ctl.c:476-500`. -/
def load (w : World H) (glob : List (Node H)) (ctl : Option (List (Node H))) (strict : Bool) (m : Mem H) (b : Nat) :
    Option (Mem H × Int) :=
  (bytes m b).bind fun l => (strtok m b ';' 0).bind fun r => loadLoop w glob ctl strict b (l.length + 1) r.1 r.2.1 r.2.2

/-- `ctl_load_config_from_string`, `ctl.c:505-516`. -/
def loadString (w : World H) (glob : List (Node H)) (ctl : Option (List (Node H))) (strict : Bool) (m : Mem H)
    (cfg : Nat × Nat) : Option (Mem H × Int) :=
  (strdup w m cfg).bind fun
    | (m, none) => some (m, -1)
    | (m, some b) => (load w glob ctl strict m b).bind fun r => (free r.1 b).map (·, r.2)

/-- A file as `ctl_load_config_from_file` meets it: whether it can be opened, the results of `fseek` and `ftell` (`none`:
-1), and what `fgetc` then delivers, which need not be as long as `ftell` said. -/
structure File where
  opens : Bool
  seekEnd : Bool
  tell : Option Nat
  seekSet : Bool
  contents : List Char

/-- The loop that reads a file into the buffer, `ctl.c:557-568`. -/
def readLoop (b : Nat) : List Char → Mem H → Nat → Bool → Option (Mem H)
  | [], m, _, _ => some m
  | c :: t, m, pos, comment =>
    if c = '#' then readLoop b t m pos true
    else if c = '\n' then readLoop b t m pos false
    else if !comment && !isSpace c then
      (bytes m b).bind fun l =>
        if pos < l.length then readLoop b t (setBytes m b (l.set pos c)) (pos + 1) comment else none
    else readLoop b t m pos comment

/-- `ctl_load_config_from_file` after the file is opened, `ctl.c:536-576`. -/
def loadOpened (w : World H) (glob : List (Node H)) (ctl : Option (List (Node H))) (strict : Bool) (m : Mem H) (f : File) :
    Option (Mem H × Int) :=
  if !f.seekEnd then some (m, -1)
  else match f.tell with
    | none => some (m, -1)
    | some fsize =>
      if 2 ^ 20 < fsize then some (m, -1)
      else if !f.seekSet then some (m, -1)
      else match alloc w m (.bytes (List.replicate (fsize + 1) nul)) with
        | (m, none) => some (m, -1)
        | (m, some b) =>
          (readLoop b f.contents m 0 false).bind fun m =>
            (load w glob ctl strict m b).bind fun r => (free r.1 b).map (·, r.2)

/-- `ctl_load_config_from_file`, `ctl.c:525-581`. -/
def loadFile (w : World H) (glob : List (Node H)) (ctl : Option (List (Node H))) (strict : Bool) (m : Mem H) (f : File) :
    Option (Mem H × Int) :=
  if !f.opens then some (m, -1)
  else (loadOpened w glob ctl strict { m with files := m.files + 1 } f).map fun r =>
    ({ r.1 with files := r.1.files - 1 }, r.2)

end Verif.CtlMem
