import Verif.Model.Cpp
import Verif.Model.Input

/-!
# Ciphertext files (src/tfhepp_util.cpp:4-97, src/tfhepp_util.hpp:20-62)

`l` and `N` are `Lvl1::l` and `Lvl1::n` of the TFHE parameter set; they are arbitrary.  A `double` is its 64-bit
pattern (the code only copies doubles as raw memory).  The host is little endian (asserted by the constructors).
-/

namespace Homfa

/-- `TRGSWLvl1FFT`: `2*l` rows of two polynomials of `N` doubles (src/tfhepp_util.hpp:21-23). -/
def Gsw (l N : Nat) := Fin (2 * l) → Fin 2 → Fin N → BitVec 64

/-- `save_double` (src/tfhepp_util.cpp:18-31): the eight bytes of a double in memory order. -/
def saveDouble (w : BitVec 64) : List Byte := (List.range 8).map fun i => w.extractLsb' (8 * i) 8

/-- The order in which the three nested loops of `save` and `load` visit a ciphertext
(src/tfhepp_util.cpp:35-38, 93-96). -/
def gswIdx (l N : Nat) : List (Fin (2 * l) × Fin 2 × Fin N) :=
  (List.finRange (2 * l)).flatMap fun i => (List.finRange 2).flatMap fun j => (List.finRange N).map fun k => (i, j, k)

/-- `TRGSWLvl1FFTSerializer::save` (src/tfhepp_util.cpp:33-39): the bytes appended to the stream.
Simplification: the output stream never fails. -/
def saveGsw {l N : Nat} (c : Gsw l N) : List Byte :=
  (gswIdx l N).flatMap fun x => saveDouble (c x.1 x.2.1 x.2.2)

/-- `TRGSWLvl1FFTDeserializer::BLOCK_SIZE` (src/tfhepp_util.hpp:44-45), a `size_t`. -/
def blockSize (l N : Nat) : Nat := (2 * l) * 2 * N * 8

/-- A `std::ifstream` over a regular file: contents, get position, and `failbit`. (src/tfhepp_util.cpp:43-97) -/
structure IStream where
  bytes : List Byte
  pos : Nat
  fail : Bool
  deriving DecidableEq, Repr

/-- `std::ios_base::seekdir`; as integers 0, 1 and 2 in libstdc++ and libc++. (src/tfhepp_util.cpp:86-89) -/
inductive SeekDir where
  | beg | cur | end_
  deriving DecidableEq, Repr

/-- the enumerators converted to `std::streampos` (src/tfhepp_util.cpp:86-89) -/
def SeekDir.toInt : SeekDir → Int
  | .beg => 0
  | .cur => 1
  | .end_ => 2

/-- `is.tellg()`: -1 when the stream has failed. (src/tfhepp_util.cpp:71, 78, 83) -/
def IStream.tellg (is : IStream) : Int := if is.fail then -1 else is.pos

/-- `is.seekg(off, dir)`: moves relative to the start, the current position or the end of the file; seeking before
the start fails and sets `failbit`; a failed stream does not move. (src/tfhepp_util.cpp:86-89) -/
def IStream.seekg (is : IStream) (off : Int) (dir : SeekDir) : IStream :=
  if is.fail then is
  else
    let base : Int := match dir with
      | .beg => 0
      | .cur => is.pos
      | .end_ => is.bytes.length
    if base + off < 0 then { is with fail := true } else { is with pos := (base + off).toNat }

/-- The value of the `size_t` expression `off * BLOCK_SIZE` with `int off`, passed as (signed 64-bit)
`std::streamoff` (src/tfhepp_util.cpp:87): sign extension, multiplication modulo 2^64, reinterpretation. -/
def seekOffset (l N : Nat) (off : Int) : Int := ((BitVec.ofInt 64 off) * (BitVec.ofNat 64 (blockSize l N))).toInt

/-- `TRGSWLvl1FFTDeserializer::seek` (src/tfhepp_util.cpp:86-89). -/
def deserSeek (l N : Nat) (is : IStream) (off : Int) (dir : SeekDir) : IStream := is.seekg (seekOffset l N off) dir

/-- `TRGSWLvl1FFTDeserializer::tell` (src/tfhepp_util.cpp:69-74): `size_t` arithmetic on the stream position. -/
def deserTell (l N : Nat) (is : IStream) : Res Nat := do
  let org : Nat := (BitVec.ofInt 64 is.tellg).toNat
  cassert (org % blockSize l N == 0)
  pure (org / blockSize l N)

/-- `TRGSWLvl1FFTDeserializer::is_beg` (src/tfhepp_util.cpp:76-79): compares with the *enumerator* `beg`. -/
def deserIsBeg (is : IStream) : Bool := is.tellg == SeekDir.beg.toInt

/-- `TRGSWLvl1FFTDeserializer::is_end` (src/tfhepp_util.cpp:81-84): compares with the *enumerator* `end`. -/
def deserIsEnd (is : IStream) : Bool := is.tellg == SeekDir.end_.toInt

/-- Reinterpret eight bytes of memory as a double (little endian). (src/tfhepp_util.cpp:55-68) -/
def ofBytes : List Byte → BitVec 64
  | [] => 0#64
  | b :: bs => (ofBytes bs <<< 8) ||| b.zeroExtend 64

/-- `load_double` (src/tfhepp_util.cpp:55-67): `sgetn` directly on the stream buffer, so the flags of the stream are
neither consulted nor changed; a short read aborts. -/
def loadDouble (is : IStream) : Res (BitVec 64 × IStream) := do
  let chunk := (is.bytes.drop is.pos).take 8
  cassert (chunk.length == 8)
  pure (ofBytes chunk, { is with pos := is.pos + 8 })

/-- `out[i][j][k] = w` (src/tfhepp_util.cpp:96) -/
def Gsw.set {l N : Nat} (c : Gsw l N) (x : Fin (2 * l) × Fin 2 × Fin N) (w : BitVec 64) : Gsw l N :=
  fun i j k => if (i, j, k) = x then w else c i j k

/-- `TRGSWLvl1FFTDeserializer::load` (src/tfhepp_util.cpp:91-97). -/
def loadGsw {l N : Nat} (is : IStream) (out : Gsw l N) : Res (Gsw l N × IStream) :=
  (gswIdx l N).foldlM (fun (acc : Gsw l N × IStream) x => do
    let (w, is) ← loadDouble acc.2
    pure (acc.1.set x w, is)) (out, is)

end Homfa
