/-!
# Model of the logger: option parsing (`src/utils/utils_common.c`, `src/utils/utils_log.c`) and messages

A C string is the list of its characters before the terminating null character.
-/
namespace Verif.Log

/-- `strstr`: the index of the first occurrence. -/
def strstr (hay needle : List Char) : Option Nat :=
  if needle.isPrefixOf hay then some 0
  else match hay with
    | [] => none
    | _ :: t => (strstr t needle).map (· + 1)

/-- The beginning of `utils_parse_var`, `utils_common.c:60-71`: the first occurrence, which must be at the beginning or
preceded by a semicolon. The result is what follows it. -/
def parseFound (var opt : List Char) : Option (List Char) :=
  match strstr var opt with
  | none => none
  | some i =>
    if i ≠ 0 ∧ var[i - 1]? ≠ some ';' then none else some (var.drop (i + opt.length))

/-- `utils_parse_var` with `extraArg = NULL`, `utils_common.c:60-79`: whether a string is returned. -/
def parseVar (var opt : List Char) : Bool :=
  match parseFound var opt with
  | none => false
  | some [] => true
  | some (c :: _) => c = ';'

/-- `utils_parse_var` with `extraArg`, `utils_common.c:60-89`: the argument, to the end of the variable. -/
def parseArg (var opt : List Char) : Option (List Char) :=
  match parseFound var opt with
  | some (',' :: rest) => some rest
  | _ => none

/-- `utils_log_level_t`, `utils_log.h`. -/
inductive Level where
  | debug | info | warning | error | fatal
deriving DecidableEq, Repr

/-- The order of the enumeration. -/
def Level.num : Level → Nat
  | .debug => 0 | .info => 1 | .warning => 2 | .error => 3 | .fatal => 4

inductive Output where
  | stdout | stderr
  | file (path : List Char)
deriving DecidableEq, Repr

/-- `utils_log_config_t`, `utils_log.c:62-71`; `none`: `NULL`. -/
structure Config where
  timestamp : Bool
  pid : Bool
  level : Level
  flush : Level
  output : Option Output
deriving DecidableEq, Repr

/-- `loggerConfig`, `utils_log.c:71`. -/
def defaults : Config := ⟨false, false, .error, .error, none⟩

/-- `MAX_FILE_PATH`, `utils_log.c:60`. -/
def maxPath : Nat := 256

/-- The file name, up to the next semicolon or the end, `utils_log.c:261-270`. -/
def fileName (arg : List Char) : List Char :=
  match strstr arg [';'] with
  | some n => arg.take n
  | none => arg

/-- The choice of the output, `utils_log.c:254-292`. `fopen`: whether the file can be opened. `none`: the
function returns with logging disabled. -/
def initOutput (var : List Char) (fopen : List Char → Bool) : Option Output :=
  if parseVar var "output:stdout".toList then some .stdout
  else if parseVar var "output:stderr".toList then some .stderr
  else match parseArg var "output:file".toList with
    | none => none
    | some arg =>
      let file := fileName arg
      if maxPath < file.length then none
      else if fopen file then some (.file file) else none

/-- The chain of `if`s for `level` and `flush`, `utils_log.c:307-328`. -/
def initLevel (var : List Char) (name : String) (dflt : Level) : Level :=
  if parseVar var (name ++ ":debug").toList then .debug
  else if parseVar var (name ++ ":info").toList then .info
  else if parseVar var (name ++ ":warning").toList then .warning
  else if parseVar var (name ++ ":error").toList then .error
  else if parseVar var (name ++ ":fatal").toList then .fatal
  else dflt

/-- The `if`s for `timestamp` and `pid`, `utils_log.c:295-305`. -/
def initBool (var : List Char) (name : String) (dflt : Bool) : Bool :=
  if parseVar var (name ++ ":yes").toList then true
  else if parseVar var (name ++ ":no").toList then false
  else dflt

/-- `utils_log_init`, `utils_log.c:247-336`. -/
def logInit (env : Option (List Char)) (fopen : List Char → Bool) : Config :=
  match env with
  | none => defaults
  | some var =>
    match initOutput var fopen with
    | none => defaults
    | some o =>
      { timestamp := initBool var "timestamp" defaults.timestamp
        pid := initBool var "pid" defaults.pid
        level := initLevel var "level" defaults.level
        flush := initLevel var "flush" defaults.flush
        output := some o }

/-! ## Messages -/

/-- `LOG_MAX`, `LOG_HEADER`, `utils_log.c:58-59`. -/
def logMax : Nat := 8192
def logHeader : Nat := 256

/-- `buffer` with the position `b_pos` and the remaining size `b_size`. `text` is the string in the buffer,
`touched` one more than the greatest index written. Both positions go beyond the buffer when a string is cut. -/
structure Buf where
  text : List Char
  pos : Nat
  size : Int
  touched : Nat

/-- `snprintf(b_pos, b_size, …)` of a string that ends up as `s`; then `b_pos += tmp; b_size -= tmp`. A
non-positive size is converted to a huge `size_t`: everything is written. -/
def Buf.print (b : Buf) (s : List Char) : Buf :=
  let n := if 0 < b.size then min s.length (b.size.toNat - 1) else s.length
  { text := b.text ++ s.take n, pos := b.pos + s.length, size := b.size - s.length,
    touched := max b.touched (b.pos + n + 1) }

/-- `strncat(b_pos, s, b_size)` at the end of the string, `utils_log.c:132`; appends at most `b_size`
characters and a null character. -/
def Buf.cat (b : Buf) (s : List Char) : Buf :=
  let n := min s.length b.size.toNat
  { text := b.text ++ s.take n, pos := b.pos + s.length, size := b.size - s.length,
    touched := max b.touched (b.pos + n + 1) }

/-- `strncpy(b_pos, err, b_size)` with the lines after it, `utils_log.c:160-168`: exactly `b_size` bytes are
written; if all are characters the last byte of the buffer is then set to null. -/
def Buf.copy (b : Buf) (s : List Char) : Buf :=
  let r : Buf := { text := b.text ++ s.take b.size.toNat, pos := b.pos + s.length, size := b.size - s.length,
                   touched := max b.touched (b.pos + b.size.toNat) }
  if r.size ≤ 0 then { r with text := r.text.take (logMax - 1) } else r

/-- The message and the postfix, `utils_log.c:111-176`. `err`: the text of `strerror_r` and whether it is
truncated, for `LOG_PERR`. -/
def message (func msg : List Char) (err : Option (List Char × Bool)) : Buf × List Char :=
  let trunc := "[truncated...]".toList
  let b : Buf := ⟨[], 0, logMax, 0⟩
  let b := b.print (func ++ ": ".toList)
  let b := b.print msg
  let r : Buf × List Char := match err with
    | none => (b, [])
    | some (e, t) =>
      if 2 < b.size then
        let b := b.cat ": ".toList
        (b.copy e, if t then trunc else [])
      else (b, trunc)
  (r.1, if r.1.size ≤ 0 then trunc else r.2)

/-- `level_to_str` padded by `%-5s`. -/
def Level.text : Level → List Char
  | .debug => "DEBUG".toList | .info => "INFO ".toList | .warning => "WARN ".toList
  | .error => "ERROR".toList | .fatal => "FATAL".toList

/-- `utils_log_internal`, `utils_log.c:99-223`: where the line goes, the line, and whether the stream is flushed.
`head` is the text of the header, shorter than `LOG_HEADER` (the date and two numbers); the line buffer has
`LOG_MAX + 2 * LOG_HEADER` bytes. -/
def log (c : Config) (level : Level) (head func msg : List Char) (err : Option (List Char × Bool)) :
    Option (Output × List Char × Bool) :=
  if c.output = none ∧ level ≠ .fatal then none
  else if level.num < c.level.num then none
  else
    let m := message func msg err
    let line := '[' :: head ++ level.text ++ " UMF] ".toList ++ m.1.text ++ m.2 ++ ['\n']
    some (c.output.getD .stderr, line.take (logMax + logHeader * 2 - 1), decide (c.flush.num ≤ level.num))

end Verif.Log
