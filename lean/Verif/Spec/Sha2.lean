import Verif.Spec.Bytes

/-!
The SHA-2 hash functions, from FIPS 180-4 (Secure Hash Standard): §4.1 (functions), §4.2 and §5.3
(constants), §5.1 (padding), §5.2 (parsing), §6.2 and §6.4 (computation). Independent of the
code: it mentions neither memory nor the runtime library.
-/

namespace Spec

/-- The eight working variables, or the eight words of the hash value. -/
structure Vars (w : Nat) where
  a : BitVec w
  b : BitVec w
  c : BitVec w
  d : BitVec w
  e : BitVec w
  f : BitVec w
  g : BitVec w
  h : BitVec w

/-- The words in order. -/
def Vars.toList {w : Nat} (v : Vars w) : List (BitVec w) := [v.a, v.b, v.c, v.d, v.e, v.f, v.g, v.h]

/-- Word-wise addition. -/
def Vars.add {w : Nat} (v u : Vars w) : Vars w :=
  ⟨v.a + u.a, v.b + u.b, v.c + u.c, v.d + u.d, v.e + u.e, v.f + u.f, v.g + u.g, v.h + u.h⟩

/-- What distinguishes the functions of the family with word size `w`: initial hash value, round
constants, and the four linear functions Σ₀, Σ₁, σ₀, σ₁. -/
structure Sha2 (w : Nat) where
  init : Vars w
  K : List (BitVec w)
  bs0 : BitVec w → BitVec w
  bs1 : BitVec w → BitVec w
  ss0 : BitVec w → BitVec w
  ss1 : BitVec w → BitVec w

namespace Sha2

/-- `Ch`. -/
def ch {w : Nat} (x y z : BitVec w) : BitVec w := (x &&& y) ^^^ (~~~x &&& z)
/-- `Maj`. -/
def maj {w : Nat} (x y z : BitVec w) : BitVec w := (x &&& y) ^^^ (x &&& z) ^^^ (y &&& z)

variable {w : Nat} (F : Sha2 w)

/-- One step of the main loop, with its constant and its schedule word. -/
def round (v : Vars w) (kw : BitVec w × BitVec w) : Vars w :=
  let t1 := v.h + F.bs1 v.e + ch v.e v.f v.g + kw.1 + kw.2
  let t2 := F.bs0 v.a + maj v.a v.b v.c
  ⟨t1 + t2, v.a, v.b, v.c, v.d + t1, v.e, v.f, v.g⟩

/-- The message schedule: the sixteen words of the block followed by `n` derived words. -/
def schedule (block : List (BitVec w)) : Nat → List (BitVec w)
  | 0 => block
  | n + 1 =>
    let W := schedule block n
    W ++ [F.ss1 (W.getD (n + 14) 0) + W.getD (n + 9) 0 + F.ss0 (W.getD (n + 1) 0) + W.getD n 0]

/-- One block is worked into the hash value. -/
def compress (H : Vars w) (block : List (BitVec w)) : Vars w :=
  ((F.K.zip (F.schedule block (F.K.length - 16))).foldl F.round H).add H

/-- Big-endian representation in `k` bytes. -/
def beBytes : Nat → Nat → List Byte
  | 0, _ => []
  | k + 1, n => BitVec.ofNat 8 (n / 256 ^ k) :: beBytes k n

/-- Little-endian representation in `k` bytes. -/
def leBytes (k n : Nat) : List Byte := (beBytes k n).reverse

/-- The padded message. Blocks have `2·w` bytes, and the length in bits takes `w/4` of them. -/
def pad (w : Nat) (msg : List Byte) : List Byte :=
  msg ++ [0x80#8] ++
    List.replicate ((2 * w - (msg.length + 1 + w / 4) % (2 * w)) % (2 * w)) 0#8 ++
    beBytes (w / 4) (8 * msg.length)

/-- The sixteen words at the start of a sequence of bytes. -/
def firstBlock (w : Nat) (bs : List Byte) : List (BitVec w) :=
  (List.range 16).map fun i => BitVec.ofNat w (beNat ((bs.drop (w / 8 * i)).take (w / 8)))

/-- The hash value after the first `n` blocks. -/
def hashBlocks (bs : List Byte) (n : Nat) : Vars w :=
  (List.range n).foldl (fun H i => F.compress H (firstBlock w (bs.drop (2 * w * i)))) F.init

/-- The digest of a message. -/
def digest (msg : List Byte) : List Byte :=
  (F.hashBlocks (pad w msg) ((pad w msg).length / (2 * w))).toList.flatMap fun x =>
    beBytes (w / 8) x.toNat

end Sha2

/-- SHA-256 (FIPS 180-4 §4.1.2, §4.2.2, §5.3.3). -/
def sha256F : Sha2 32 where
  init := ⟨0x6a09e667#32, 0xbb67ae85#32, 0x3c6ef372#32, 0xa54ff53a#32, 0x510e527f#32, 0x9b05688c#32,
    0x1f83d9ab#32, 0x5be0cd19#32⟩
  K := [
    0x428a2f98#32, 0x71374491#32, 0xb5c0fbcf#32, 0xe9b5dba5#32, 0x3956c25b#32, 0x59f111f1#32,
    0x923f82a4#32, 0xab1c5ed5#32, 0xd807aa98#32, 0x12835b01#32, 0x243185be#32, 0x550c7dc3#32,
    0x72be5d74#32, 0x80deb1fe#32, 0x9bdc06a7#32, 0xc19bf174#32, 0xe49b69c1#32, 0xefbe4786#32,
    0x0fc19dc6#32, 0x240ca1cc#32, 0x2de92c6f#32, 0x4a7484aa#32, 0x5cb0a9dc#32, 0x76f988da#32,
    0x983e5152#32, 0xa831c66d#32, 0xb00327c8#32, 0xbf597fc7#32, 0xc6e00bf3#32, 0xd5a79147#32,
    0x06ca6351#32, 0x14292967#32, 0x27b70a85#32, 0x2e1b2138#32, 0x4d2c6dfc#32, 0x53380d13#32,
    0x650a7354#32, 0x766a0abb#32, 0x81c2c92e#32, 0x92722c85#32, 0xa2bfe8a1#32, 0xa81a664b#32,
    0xc24b8b70#32, 0xc76c51a3#32, 0xd192e819#32, 0xd6990624#32, 0xf40e3585#32, 0x106aa070#32,
    0x19a4c116#32, 0x1e376c08#32, 0x2748774c#32, 0x34b0bcb5#32, 0x391c0cb3#32, 0x4ed8aa4a#32,
    0x5b9cca4f#32, 0x682e6ff3#32, 0x748f82ee#32, 0x78a5636f#32, 0x84c87814#32, 0x8cc70208#32,
    0x90befffa#32, 0xa4506ceb#32, 0xbef9a3f7#32, 0xc67178f2#32]
  bs0 x := x.rotateRight 2 ^^^ x.rotateRight 13 ^^^ x.rotateRight 22
  bs1 x := x.rotateRight 6 ^^^ x.rotateRight 11 ^^^ x.rotateRight 25
  ss0 x := x.rotateRight 7 ^^^ x.rotateRight 18 ^^^ (x >>> 3)
  ss1 x := x.rotateRight 17 ^^^ x.rotateRight 19 ^^^ (x >>> 10)

/-- SHA-512 (FIPS 180-4 §4.1.3, §4.2.3, §5.3.5). -/
def sha512F : Sha2 64 where
  init := ⟨0x6a09e667f3bcc908#64, 0xbb67ae8584caa73b#64, 0x3c6ef372fe94f82b#64, 0xa54ff53a5f1d36f1#64,
    0x510e527fade682d1#64, 0x9b05688c2b3e6c1f#64, 0x1f83d9abfb41bd6b#64, 0x5be0cd19137e2179#64⟩
  K := [
    0x428a2f98d728ae22#64, 0x7137449123ef65cd#64, 0xb5c0fbcfec4d3b2f#64, 0xe9b5dba58189dbbc#64,
    0x3956c25bf348b538#64, 0x59f111f1b605d019#64, 0x923f82a4af194f9b#64, 0xab1c5ed5da6d8118#64,
    0xd807aa98a3030242#64, 0x12835b0145706fbe#64, 0x243185be4ee4b28c#64, 0x550c7dc3d5ffb4e2#64,
    0x72be5d74f27b896f#64, 0x80deb1fe3b1696b1#64, 0x9bdc06a725c71235#64, 0xc19bf174cf692694#64,
    0xe49b69c19ef14ad2#64, 0xefbe4786384f25e3#64, 0x0fc19dc68b8cd5b5#64, 0x240ca1cc77ac9c65#64,
    0x2de92c6f592b0275#64, 0x4a7484aa6ea6e483#64, 0x5cb0a9dcbd41fbd4#64, 0x76f988da831153b5#64,
    0x983e5152ee66dfab#64, 0xa831c66d2db43210#64, 0xb00327c898fb213f#64, 0xbf597fc7beef0ee4#64,
    0xc6e00bf33da88fc2#64, 0xd5a79147930aa725#64, 0x06ca6351e003826f#64, 0x142929670a0e6e70#64,
    0x27b70a8546d22ffc#64, 0x2e1b21385c26c926#64, 0x4d2c6dfc5ac42aed#64, 0x53380d139d95b3df#64,
    0x650a73548baf63de#64, 0x766a0abb3c77b2a8#64, 0x81c2c92e47edaee6#64, 0x92722c851482353b#64,
    0xa2bfe8a14cf10364#64, 0xa81a664bbc423001#64, 0xc24b8b70d0f89791#64, 0xc76c51a30654be30#64,
    0xd192e819d6ef5218#64, 0xd69906245565a910#64, 0xf40e35855771202a#64, 0x106aa07032bbd1b8#64,
    0x19a4c116b8d2d0c8#64, 0x1e376c085141ab53#64, 0x2748774cdf8eeb99#64, 0x34b0bcb5e19b48a8#64,
    0x391c0cb3c5c95a63#64, 0x4ed8aa4ae3418acb#64, 0x5b9cca4f7763e373#64, 0x682e6ff3d6b2b8a3#64,
    0x748f82ee5defb2fc#64, 0x78a5636f43172f60#64, 0x84c87814a1f0ab72#64, 0x8cc702081a6439ec#64,
    0x90befffa23631e28#64, 0xa4506cebde82bde9#64, 0xbef9a3f7b2c67915#64, 0xc67178f2e372532b#64,
    0xca273eceea26619c#64, 0xd186b8c721c0c207#64, 0xeada7dd6cde0eb1e#64, 0xf57d4f7fee6ed178#64,
    0x06f067aa72176fba#64, 0x0a637dc5a2c898a6#64, 0x113f9804bef90dae#64, 0x1b710b35131c471b#64,
    0x28db77f523047d84#64, 0x32caab7b40c72493#64, 0x3c9ebe0a15c9bebc#64, 0x431d67c49c100d4c#64,
    0x4cc5d4becb3e42b6#64, 0x597f299cfc657e2a#64, 0x5fcb6fab3ad6faec#64, 0x6c44198c4a475817#64]
  bs0 x := x.rotateRight 28 ^^^ x.rotateRight 34 ^^^ x.rotateRight 39
  bs1 x := x.rotateRight 14 ^^^ x.rotateRight 18 ^^^ x.rotateRight 41
  ss0 x := x.rotateRight 1 ^^^ x.rotateRight 8 ^^^ (x >>> 7)
  ss1 x := x.rotateRight 19 ^^^ x.rotateRight 61 ^^^ (x >>> 6)

/-- `r` is the first `w` bits of the fractional part of the `k`-th root of `p`. -/
def isRootFrac (k w p r : Nat) : Bool :=
  let n := (List.range 32).find? fun n => decide ((n * 2 ^ w + r) ^ k ≤ p * 2 ^ (k * w)) &&
    decide (p * 2 ^ (k * w) < (n * 2 ^ w + r + 1) ^ k)
  n.isSome

/-- The first 80 primes. -/
def smallPrimes : List Nat := (List.range 410).filter fun p =>
  decide (2 ≤ p) && (List.range p).all fun d => decide (d < 2) || decide (p % d ≠ 0)

theorem length_smallPrimes : smallPrimes.length = 80 := by decide +kernel

/-- The constants are what the standard says they are: the first bits of the fractional parts of
the square and cube roots of the first primes. -/
theorem sha2_constants :
    (smallPrimes.zip (sha256F.init.toList)).all (fun x => isRootFrac 2 32 x.1 x.2.toNat) = true ∧
    (smallPrimes.zip sha256F.K).all (fun x => isRootFrac 3 32 x.1 x.2.toNat) = true ∧
    (smallPrimes.zip (sha512F.init.toList)).all (fun x => isRootFrac 2 64 x.1 x.2.toNat) = true ∧
    (smallPrimes.zip sha512F.K).all (fun x => isRootFrac 3 64 x.1 x.2.toNat) = true ∧
    sha256F.K.length = 64 ∧ sha512F.K.length = 80 := by
  decide +kernel

/-- The standard's first example: the digest of "abc". -/
theorem sha256_abc : sha256F.digest [0x61#8, 0x62#8, 0x63#8] = [
    0xba#8, 0x78#8, 0x16#8, 0xbf#8, 0x8f#8, 0x01#8, 0xcf#8, 0xea#8, 0x41#8, 0x41#8, 0x40#8,
    0xde#8, 0x5d#8, 0xae#8, 0x22#8, 0x23#8, 0xb0#8, 0x03#8, 0x61#8, 0xa3#8, 0x96#8, 0x17#8,
    0x7a#8, 0x9c#8, 0xb4#8, 0x10#8, 0xff#8, 0x61#8, 0xf2#8, 0x00#8, 0x15#8, 0xad#8] := by
  decide +kernel

/-- The standard's first example: the digest of "abc". -/
theorem sha512_abc : sha512F.digest [0x61#8, 0x62#8, 0x63#8] = [
    0xdd#8, 0xaf#8, 0x35#8, 0xa1#8, 0x93#8, 0x61#8, 0x7a#8, 0xba#8, 0xcc#8, 0x41#8, 0x73#8,
    0x49#8, 0xae#8, 0x20#8, 0x41#8, 0x31#8, 0x12#8, 0xe6#8, 0xfa#8, 0x4e#8, 0x89#8, 0xa9#8,
    0x7e#8, 0xa2#8, 0x0a#8, 0x9e#8, 0xee#8, 0xe6#8, 0x4b#8, 0x55#8, 0xd3#8, 0x9a#8, 0x21#8,
    0x92#8, 0x99#8, 0x2a#8, 0x27#8, 0x4f#8, 0xc1#8, 0xa8#8, 0x36#8, 0xba#8, 0x3c#8, 0x23#8,
    0xa3#8, 0xfe#8, 0xeb#8, 0xbd#8, 0x45#8, 0x4d#8, 0x44#8, 0x23#8, 0x64#8, 0x3c#8, 0xe8#8,
    0x0e#8, 0x2a#8, 0x9a#8, 0xc9#8, 0x4f#8, 0xa5#8, 0x4c#8, 0xa4#8, 0x9f#8] := by
  decide +kernel

end Spec
