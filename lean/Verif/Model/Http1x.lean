import Verif.Model.Util
/-
Model of `octane_http/src/http1x/mod.rs` (reading the request head from a connection).
-/
namespace Octane

/-- An I/O computation on a connection: it may finish, panic, block forever (the peer stays
silent), or abort the whole process (failed allocation). -/
inductive Io (α : Type u) where
  | ok (a : α)
  | panic
  | pending
  | abort
  deriving DecidableEq

namespace Io
def bind {α : Type u} {β : Type v} : Io α → (α → Io β) → Io β
  | .ok a, f => f a
  | .panic, _ => .panic
  | .pending, _ => .pending
  | .abort, _ => .abort

def ofRes {α : Type u} : Res α → Io α
  | .ok a => .ok a
  | .panic => .panic

@[simp] theorem bind_ok {α : Type u} {β : Type v} (a : α) (f : α → Io β) :
    (Io.ok a).bind f = f a := rfl
@[simp] theorem bind_panic {α : Type u} {β : Type v} (f : α → Io β) :
    (Io.panic : Io α).bind f = Io.panic := rfl
@[simp] theorem bind_pending {α : Type u} {β : Type v} (f : α → Io β) :
    (Io.pending : Io α).bind f = Io.pending := rfl
@[simp] theorem bind_abort {α : Type u} {β : Type v} (f : α → Io β) :
    (Io.abort : Io α).bind f = Io.abort := rfl
@[simp] theorem ofRes_ok {α : Type u} (a : α) : ofRes (Res.ok a) = Io.ok a := rfl
@[simp] theorem ofRes_panic {α : Type u} : ofRes (Res.panic : Res α) = Io.panic := rfl
end Io

/-- What happens on a connection after all its bytes have been delivered. -/
inductive SockEnd where
  | eof    -- the peer closed its sending side
  | error  -- a read returns an I/O error
  | silent -- the peer sends nothing more and does not close
  deriving DecidableEq

/-- The reading side of a connection (`ReadHalf<T>`): the segments in which the remaining bytes
will be delivered, and what happens afterwards. -/
structure Sock where
  segs : List Bytes
  fin : SockEnd
  deriving DecidableEq

/-- result of one `read` -/
inductive ReadOut where
  | data (b : Bytes) (s : Sock) -- `Ok(n)`; `n = 0` only at end of stream
  | error
  | pending

/-- `AsyncReadExt::read` with a buffer of `cap` bytes: a non-empty prefix, of at most `cap`
bytes, of the next segment; `Ok(0)` at end of stream. -/
def readSegs (cap : Nat) (fin : SockEnd) : List Bytes → ReadOut
  | [] =>
    match fin with
    | .eof => .data [] ⟨[], .eof⟩
    | .error => .error
    | .silent => .pending
  | [] :: segs => readSegs cap fin segs
  | (b :: bs) :: segs =>
    if (b :: bs).length ≤ cap then .data (b :: bs) ⟨segs, fin⟩
    else .data ((b :: bs).take cap) ⟨(b :: bs).drop cap :: segs, fin⟩

def Sock.read (cap : Nat) (s : Sock) : ReadOut := readSegs cap s.fin s.segs

/-- all bytes still to be delivered -/
def Sock.bytes (s : Sock) : Bytes := s.segs.flatten

/-- `octane_http/src/http1x/mod.rs:75-81` `parse_without_body`. -/
def parseWithoutBody (data : Str) : Res (Option (Str × Str)) :=
  match findStr c!"\r\n" data with
  | none => .ok none
  | some n =>
    (splitAtByte n data).bind fun (line, rest) =>
      (sliceFrom 2 rest).bind fun headers => .ok (some (line, headers))

/-- result of `Http1xReader::new`: `Ok((headers, request_line, body_remainder, reader))`
or `Err(StatusCode::BadRequest)` -/
inductive HeadOut where
  | head (headers requestLine : Str) (bodyRemainder : Bytes) (reader : Sock)
  | badRequest

/-- `octane_http/src/http1x/mod.rs:31-43`: what one loop iteration does after a non-empty read
has been appended to `data`: `none` means the loop goes on. -/
def headCheck (data : Bytes) (reader : Sock) : Res (Option HeadOut) :=
  (findInSlice data [13, 10, 13, 10]).bind fun
    | none => .ok none
    | some i =>
      -- `&data[i + 4..]` panics if out of range
      if i + 4 ≤ data.length then
        match fromUtf8 (data.take i) with
        | none => .ok (some .badRequest)
        | some s =>
          (parseWithoutBody s).bind fun
            | some (rl, heads) => .ok (some (.head heads rl (data.drop (i + 4)) reader))
            | none => .ok (some .badRequest)
      else .panic

/-- `octane_http/src/http1x/mod.rs:26-44`: the read loop of `Http1xReader::new`, with a bound
`fuel` on the number of reads (each read consumes at least one byte, so one more than the number
of bytes suffices; running out is reported as a panic and proved impossible).
The `buf` is 512 bytes; a read error hits `.unwrap()`. -/
def readHeadLoop : Nat → Bytes → Sock → Io HeadOut
  | 0, _, _ => .panic
  | fuel + 1, data, s =>
    match s.read 512 with
    | .error => .panic
    | .pending => .pending
    | .data b s' =>
      if b = [] then .ok .badRequest
      else
        match headCheck (data ++ b) s' with
        | .panic => .panic
        | .ok (some out) => .ok out
        | .ok none => readHeadLoop fuel (data ++ b) s'

/-- `octane_http/src/http1x/mod.rs:17-51` `Http1xReader::new`. -/
def readHead (s : Sock) : Io HeadOut := readHeadLoop (s.bytes.length + 1) [] s

/-- `AsyncReadExt::read_exact` for `n` bytes: `ok none` is `Err(_)` (end of stream or I/O
error before `n` bytes). -/
def readExactLoop : Nat → Nat → Sock → Io (Option (Bytes × Sock))
  | 0, _, _ => .panic
  | fuel + 1, n, s =>
    if n = 0 then .ok (some ([], s))
    else
      match s.read n with
      | .error => .ok none
      | .pending => .pending
      | .data b s' =>
        if b = [] then .ok none
        else (readExactLoop fuel (n - b.length) s').bind fun
          | none => .ok none
          | some (bs, s'') => .ok (some (b ++ bs, s''))

def readExact (n : Nat) (s : Sock) : Io (Option (Bytes × Sock)) :=
  readExactLoop (s.bytes.length + 2) n s

end Octane
