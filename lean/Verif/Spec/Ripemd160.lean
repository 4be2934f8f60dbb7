import Verif.Spec.Sha2

/-!
RIPEMD-160, from Dobbertin, Bosselaers, Preneel, "RIPEMD-160: A Strengthened Version of RIPEMD"
(the article cited in standard.wat 1826). Independent of the code: it mentions neither memory nor
the runtime library, and the selection and rotation tables are given by the permutations ρ and π
of the article.
-/

namespace Spec.Ripemd

/-- Five words: a chaining value, or the state of one of the two lines. -/
structure Line where
  a : BitVec 32
  b : BitVec 32
  c : BitVec 32
  d : BitVec 32
  e : BitVec 32

/-- The words in order. -/
def Line.toList (v : Line) : List (BitVec 32) := [v.a, v.b, v.c, v.d, v.e]

/-- The five Boolean functions. -/
def f : Nat → BitVec 32 → BitVec 32 → BitVec 32 → BitVec 32
  | 0, x, y, z => x ^^^ y ^^^ z
  | 1, x, y, z => (x &&& y) ||| (~~~x &&& z)
  | 2, x, y, z => (x ||| ~~~y) ^^^ z
  | 3, x, y, z => (x &&& z) ||| (y &&& ~~~z)
  | _, x, y, z => x ^^^ (y ||| ~~~z)

/-- Added constants of the left line. -/
def K : List (BitVec 32) := [0#32, 0x5A827999#32, 0x6ED9EBA1#32, 0x8F1BBCDC#32, 0xA953FD4E#32]
/-- Added constants of the right line. -/
def K' : List (BitVec 32) := [0x50A28BE6#32, 0x5C4DD124#32, 0x6D703EF3#32, 0x7A6D76E9#32, 0#32]

/-- They are the integer parts of `2^30` times the square and cube roots of 2, 3, 5 and 7. -/
theorem constants :
    (∀ kp ∈ (K.drop 1).zip [2, 3, 5, 7], kp.1.toNat ^ 2 ≤ kp.2 * 2 ^ 60 ∧ kp.2 * 2 ^ 60 < (kp.1.toNat + 1) ^ 2) ∧
    (∀ kp ∈ (K'.take 4).zip [2, 3, 5, 7], kp.1.toNat ^ 3 ≤ kp.2 * 2 ^ 90 ∧ kp.2 * 2 ^ 90 < (kp.1.toNat + 1) ^ 3) := by
  decide +kernel

/-- The permutation ρ. -/
def rho (i : Nat) : Nat := [7, 4, 13, 1, 10, 6, 15, 3, 12, 0, 9, 5, 2, 14, 11, 8].getD i 0
/-- The permutation π. -/
def pi (i : Nat) : Nat := (9 * i + 5) % 16

/-- `ρ` applied `j` times. -/
def rhos : Nat → Nat → Nat
  | 0, i => i
  | j + 1, i => rho (rhos j i)

/-- Selection of message words: in round `j`, left and right. -/
def r (j i : Nat) : Nat := rhos j i
/-- Selection of message words, right line. -/
def r' (j i : Nat) : Nat := rhos j (pi i)

/-- Rotations: by round and message word. -/
def shifts : List (List Nat) := [
  [11, 14, 15, 12, 5, 8, 7, 9, 11, 13, 14, 15, 6, 7, 9, 8],
  [12, 13, 11, 15, 6, 9, 9, 7, 12, 15, 11, 13, 7, 8, 7, 7],
  [13, 15, 14, 11, 7, 7, 6, 8, 13, 14, 13, 12, 5, 5, 6, 9],
  [14, 11, 12, 14, 8, 6, 5, 5, 15, 12, 15, 14, 9, 9, 8, 6],
  [15, 12, 13, 13, 9, 5, 8, 6, 14, 11, 12, 11, 8, 6, 5, 5]]

/-- The rotation of word `w` in round `j`. -/
def s (j w : Nat) : Nat := (shifts.getD j []).getD w 0

/-- One step: Boolean function number `j`, message word `x`, constant `k`, rotation `n`. -/
def step (v : Line) (j : Nat) (x k : BitVec 32) (n : Nat) : Line :=
  ⟨v.e, (v.a + f j v.b v.c v.d + x + k).rotateLeft n + v.e, v.b, v.c.rotateLeft 10, v.d⟩

/-- Step `n` of the left line on the words `X`. -/
def left (X : Nat → BitVec 32) (v : Line) (n : Nat) : Line :=
  step v (n / 16) (X (r (n / 16) (n % 16))) (K.getD (n / 16) 0) (s (n / 16) (r (n / 16) (n % 16)))

/-- Step `n` of the right line. -/
def right (X : Nat → BitVec 32) (v : Line) (n : Nat) : Line :=
  step v (4 - n / 16) (X (r' (n / 16) (n % 16))) (K'.getD (n / 16) 0) (s (n / 16) (r' (n / 16) (n % 16)))

/-- One block is worked into the chaining value. -/
def compress (h : Line) (X : Nat → BitVec 32) : Line :=
  let l := (List.range 80).foldl (left X) h
  let q := (List.range 80).foldl (right X) h
  ⟨h.b + l.c + q.d, h.c + l.d + q.e, h.d + l.e + q.a, h.e + l.a + q.b, h.a + l.b + q.c⟩

/-- The initial value. -/
def init : Line := ⟨0x67452301#32, 0xEFCDAB89#32, 0x98BADCFE#32, 0x10325476#32, 0xC3D2E1F0#32⟩

/-- The padded message: blocks of 64 bytes, the length in bits little-endian at the end. -/
def pad (msg : List Byte) : List Byte :=
  msg ++ [0x80#8] ++ List.replicate ((64 - (msg.length + 9) % 64) % 64) 0#8 ++
    Sha2.leBytes 8 (8 * msg.length)

/-- Word `i` of the block at the start of a sequence of bytes. -/
def word (bs : List Byte) (i : Nat) : BitVec 32 := BitVec.ofNat 32 (leNat ((bs.drop (4 * i)).take 4))

/-- The chaining value after `n` blocks. -/
def hashBlocks (bs : List Byte) (n : Nat) : Line :=
  (List.range n).foldl (fun h i => compress h (word (bs.drop (64 * i)))) init

/-- RIPEMD-160. -/
def digest (msg : List Byte) : List Byte :=
  (hashBlocks (pad msg) ((pad msg).length / 64)).toList.flatMap fun x => Sha2.leBytes 4 x.toNat

/-- The published digests of "", "abc" and the 56-letter message that needs two blocks. -/
theorem published :
    digest [] = [0x9c#8, 0x11#8, 0x85#8, 0xa5#8, 0xc5#8, 0xe9#8, 0xfc#8, 0x54#8, 0x61#8, 0x28#8,
      0x08#8, 0x97#8, 0x7e#8, 0xe8#8, 0xf5#8, 0x48#8, 0xb2#8, 0x25#8, 0x8d#8, 0x31#8] ∧
    digest [97#8, 98#8, 99#8] = [0x8e#8, 0xb2#8, 0x08#8, 0xf7#8, 0xe0#8, 0x5d#8, 0x98#8, 0x7a#8,
      0x9b#8, 0x04#8, 0x4a#8, 0x8e#8, 0x98#8, 0xc6#8, 0xb0#8, 0x87#8, 0xf1#8, 0x5a#8, 0x0b#8, 0xfc#8] ∧
    digest ((List.range 14).flatMap fun i => (List.range 4).map fun j => BitVec.ofNat 8 (97 + i + j)) =
      [0x12#8, 0xa0#8, 0x53#8, 0x38#8, 0x4a#8, 0x9c#8, 0x0c#8, 0x88#8, 0xe4#8, 0x05#8, 0xa0#8, 0x6c#8,
      0x27#8, 0xdc#8, 0xf4#8, 0x9a#8, 0xda#8, 0x62#8, 0xeb#8, 0x2b#8] := by
  decide +kernel

end Spec.Ripemd

namespace Spec

/-- RIPEMD-160 of SHA-256. -/
def hash160 (msg : List Byte) : List Byte := Ripemd.digest (sha256F.digest msg)

end Spec
