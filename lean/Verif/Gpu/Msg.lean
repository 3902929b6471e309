/-!
# Model of the native error messages (`src/provider/provider_cuda.c:565-613`,
`src/provider/provider_level_zero.c:641-652`)

Characters are numbers, a C string is the list of its characters without the terminating 0. Reading past the end of a
buffer and writing outside it are undefined (`none`).
-/
namespace Verif.Gpu.Msg

abbrev Bytes := List Nat

/-- `TLS_MSG_BUF_LEN`, `provider_cuda.c:160`. -/
def bufLen : Nat := 1024

/-- The characters of a literal. -/
def lit (s : String) : Bytes := s.toList.map Char.toNat

/-- `strlen`. -/
def strlen (buf : Bytes) : Option Nat := buf.findIdx? (· == 0)

/-- `strncpy`: at most `n` characters, filled up with zeros to `n`. -/
def strncpy (buf src : Bytes) (n : Nat) : Option Bytes :=
  if n ≤ buf.length then some (src.take n ++ List.replicate (n - src.length) 0 ++ buf.drop n) else none

/-- `strncat`: at most `n` characters and a zero after the string in the buffer. -/
def strncat (buf src : Bytes) (n : Nat) : Option Bytes :=
  match strlen buf with
  | none => none
  | some p =>
    if p + (src.take n).length + 1 ≤ buf.length then
      some (buf.take p ++ src.take n ++ [0] ++ buf.drop (p + (src.take n).length + 1))
    else none

/-- `cu_memory_provider_get_last_native_error`, `provider_cuda.c:565-613`, on the thread's message buffer. `name` and `text`
are what `cuGetErrorName` and `cuGetErrorString` give for the code, `none` when they fail. -/
def cuMessage (buf : Bytes) (name text : Option Bytes) : Option Bytes := do
  let buf ← match name with
    | some n => strncpy buf n (bufLen - 1)
    | none => strncpy buf (lit "cuGetErrorName() failed") (bufLen - 1)
  let size ← strlen buf
  let buf ← strncat buf (lit " - ") (bufLen - size - 1)
  let size ← strlen buf
  match text with
    | some t => strncat buf t (bufLen - size - 1)
    | none => strncat buf (lit "cuGetErrorString() failed") (bufLen - size - 1)

/-- The buffer after any queries of a thread, `provider_cuda.c:160-170`: it starts with zeros and nothing else writes it. -/
def history : List (Option Bytes × Option Bytes) → Option Bytes
  | [] => some (List.replicate bufLen 0)
  | q :: qs => (history qs).bind fun buf => cuMessage buf q.1 q.2

/-- What a query of the last native error gives: the code and the message pointer of the caller's variables afterwards. -/
structure Query where
  code : Nat
  /-- `none`: the caller's pointer variable was not written -/
  msg : Option Bytes

/-- `ze_memory_provider_get_last_native_error`, `provider_level_zero.c:641-652`: only the code is stored. -/
def zeQueryError (tls : Nat) : Query := { code := tls, msg := none }

end Verif.Gpu.Msg
