import Verif.Rust.Num
/-! # Trace ids, span ids, trace flags (`opentelemetry/src/trace_context.rs`) -/

namespace Otel
open Rust

/-- `TraceId(u128)`, trace_context.rs:94. -/
abbrev TraceId := BitVec 128
/-- `SpanId(u64)`, trace_context.rs:155. -/
abbrev SpanId := BitVec 64
/-- `TraceFlags(u8)`, trace_context.rs:16. -/
abbrev TraceFlags := BitVec 8

/-- `TraceId::INVALID`, trace_context.rs:98. -/
def TraceId.invalid : TraceId := 0#128
/-- `SpanId::INVALID`, trace_context.rs:159. -/
def SpanId.invalid : SpanId := 0#64
/-- `TraceFlags::SAMPLED`, trace_context.rs:33. -/
def TraceFlags.sampled : TraceFlags := 1#8
/-- `TraceFlags::NOT_SAMPLED`, trace_context.rs:25. -/
def TraceFlags.notSampled : TraceFlags := 0#8

/-- `TraceFlags::is_sampled`, trace_context.rs:41-43. -/
def TraceFlags.isSampled (f : TraceFlags) : Bool := (f &&& TraceFlags.sampled) == TraceFlags.sampled

/-- `TraceFlags::with_sampled`, trace_context.rs:46-52. -/
def TraceFlags.withSampled (f : TraceFlags) (b : Bool) : TraceFlags :=
  if b then f ||| TraceFlags.sampled else f &&& ~~~TraceFlags.sampled

/-- `Display for TraceId` = `{:032x}`, trace_context.rs:139-143. -/
def TraceId.toText (t : TraceId) : Str := fmtHex 32 t.toNat
/-- `TraceId::from_hex`, trace_context.rs:122-124. -/
def TraceId.fromHex (s : Str) : Option TraceId := (parseHex 128 s).map (BitVec.ofNat 128)
/-- `Display for SpanId` = `{:016x}`, trace_context.rs:200-204. -/
def SpanId.toText (t : SpanId) : Str := fmtHex 16 t.toNat
/-- `SpanId::from_hex`, trace_context.rs:183-185. -/
def SpanId.fromHex (s : Str) : Option SpanId := (parseHex 64 s).map (BitVec.ofNat 64)

/-- `uN::to_be_bytes` for `k` bytes: most significant first. -/
def beBytes : Nat → Nat → List (BitVec 8)
  | 0, _ => []
  | k + 1, n => beBytes k (n / 256) ++ [BitVec.ofNat 8 n]

/-- `uN::from_be_bytes`. -/
def ofBeBytes (bs : List (BitVec 8)) : Nat := bs.foldl (fun acc b => acc * 256 + b.toNat) 0

/-- `TraceId::to_bytes`, trace_context.rs:106-108. -/
def TraceId.toBytes (t : TraceId) : List (BitVec 8) := beBytes 16 t.toNat
/-- `TraceId::from_bytes`, trace_context.rs:101-103 (the Rust argument type has exactly 16 bytes). -/
def TraceId.fromBytes (bs : List (BitVec 8)) : TraceId := BitVec.ofNat 128 (ofBeBytes bs)
/-- `SpanId::to_bytes`, trace_context.rs:167-169. -/
def SpanId.toBytes (t : SpanId) : List (BitVec 8) := beBytes 8 t.toNat
/-- `SpanId::from_bytes`, trace_context.rs:162-164 (exactly 8 bytes). -/
def SpanId.fromBytes (bs : List (BitVec 8)) : SpanId := BitVec.ofNat 64 (ofBeBytes bs)

end Otel
