import Verif.Basic
/-
MD5 (RFC 1321), as `QCryptographicHash::hash(…, QCryptographicHash::Md5)` of Qt gives it, and `QByteArray::toHex`: the clients of the examples send the password like this
(examples/addressbook/addressbookengine.cpp:57, examples/simplechat/simplechatengine.cpp:73). Neither is code of the project; they are written down here as they are documented.
-/
namespace QtPb.Md5

/-- The table T of RFC 1321, section 3.4. -/
def table : List UInt32 := [
  0xd76aa478, 0xe8c7b756, 0x242070db, 0xc1bdceee, 0xf57c0faf, 0x4787c62a, 0xa8304613, 0xfd469501,
  0x698098d8, 0x8b44f7af, 0xffff5bb1, 0x895cd7be, 0x6b901122, 0xfd987193, 0xa679438e, 0x49b40821,
  0xf61e2562, 0xc040b340, 0x265e5a51, 0xe9b6c7aa, 0xd62f105d, 0x02441453, 0xd8a1e681, 0xe7d3fbc8,
  0x21e1cde6, 0xc33707d6, 0xf4d50d87, 0x455a14ed, 0xa9e3e905, 0xfcefa3f8, 0x676f02d9, 0x8d2a4c8a,
  0xfffa3942, 0x8771f681, 0x6d9d6122, 0xfde5380c, 0xa4beea44, 0x4bdecfa9, 0xf6bb4b60, 0xbebfbc70,
  0x289b7ec6, 0xeaa127fa, 0xd4ef3085, 0x04881d05, 0xd9d4d039, 0xe6db99e5, 0x1fa27cf8, 0xc4ac5665,
  0xf4292244, 0x432aff97, 0xab9423a7, 0xfc93a039, 0x655b59c3, 0x8f0ccc92, 0xffeff47d, 0x85845dd1,
  0x6fa87e4f, 0xfe2ce6e0, 0xa3014314, 0x4e0811a1, 0xf7537e82, 0xbd3af235, 0x2ad7d2bb, 0xeb86d391]

/-- How far each step rotates (RFC 1321, section 3.4). -/
def shifts : List UInt32 := [7, 12, 17, 22, 5, 9, 14, 20, 4, 11, 16, 23, 6, 10, 15, 21]

def rotate (x s : UInt32) : UInt32 := (x <<< s) ||| (x >>> (32 - s))

/-- Four bytes, the least significant first. -/
def word (bs : Bytes) : UInt32 := bs.foldr (fun b w => (w <<< 8) ||| b.toUInt32) 0

/-- `n` bytes of a number, the least significant first. -/
def little : Nat → Nat → Bytes
  | 0, _ => []
  | n + 1, x => UInt8.ofNat (x % 256) :: little n (x / 256)

/-- The message with the bits and the length that are appended (RFC 1321, sections 3.1, 3.2). -/
def padded (bs : Bytes) : Bytes := bs ++ [0x80] ++ List.replicate ((119 - bs.length % 64) % 64) 0 ++ little 8 (8 * bs.length)

structure Regs where
  a : UInt32
  b : UInt32
  c : UInt32
  d : UInt32

/-- A step (RFC 1321, section 3.4). -/
def Regs.step (block : List UInt32) (r : Regs) (i : Nat) : Regs :=
  let f := if i < 16 then (r.b &&& r.c) ||| (~~~ r.b &&& r.d) else if i < 32 then (r.d &&& r.b) ||| (~~~ r.d &&& r.c)
    else if i < 48 then r.b ^^^ r.c ^^^ r.d else r.c ^^^ (r.b ||| ~~~ r.d)
  let g := if i < 16 then i else if i < 32 then (5 * i + 1) % 16 else if i < 48 then (3 * i + 5) % 16 else (7 * i) % 16
  let x := f + r.a + table.getD i 0 + block.getD g 0
  ⟨r.d, r.b + rotate x (shifts.getD (4 * (i / 16) + i % 4) 0), r.b, r.c⟩

/-- One block of 64 bytes. -/
def Regs.block (r : Regs) (bs : Bytes) : Regs :=
  let q := (List.range 64).foldl (Regs.step ((List.range 16).map fun i => word ((bs.drop (4 * i)).take 4))) r
  ⟨r.a + q.a, r.b + q.b, r.c + q.c, r.d + q.d⟩

def md5 (bs : Bytes) : Bytes :=
  let p := padded bs
  let r : Regs := (List.range (p.length / 64)).foldl (fun (r : Regs) i => r.block ((p.drop (64 * i)).take 64)) ⟨0x67452301, 0xefcdab89, 0x98badcfe, 0x10325476⟩
  [r.a, r.b, r.c, r.d].flatMap fun w => little 4 w.toNat

def digit (n : Nat) : UInt8 := UInt8.ofNat (if n < 10 then 48 + n else 87 + n)

/-- `QByteArray::toHex`. -/
def toHex (bs : Bytes) : Bytes := bs.flatMap fun b => [digit (b.toNat / 16), digit (b.toNat % 16)]

def md5Hex (bs : Bytes) : Bytes := toHex (md5 bs)

/-- A test of RFC 1321, appendix A.5. -/
example : md5Hex [] = [100, 52, 49, 100, 56, 99, 100, 57, 56, 102, 48, 48, 98, 50, 48, 52, 101, 57, 56, 48, 48, 57, 57, 56, 101, 99, 102, 56, 52, 50, 55, 101] := by decide +kernel

/-- A test of RFC 1321, appendix A.5. -/
example : md5Hex [49, 50, 51, 52, 53, 54, 55, 56, 57, 48, 49, 50, 51, 52, 53, 54, 55, 56, 57, 48, 49, 50, 51, 52, 53, 54, 55, 56, 57, 48, 49, 50, 51, 52, 53, 54, 55, 56, 57, 48, 49, 50, 51, 52, 53, 54, 55, 56, 57, 48, 49, 50, 51, 52, 53, 54, 55, 56, 57, 48, 49, 50, 51, 52, 53, 54, 55, 56, 57, 48, 49, 50, 51, 52, 53, 54, 55, 56, 57, 48] = [53, 55, 101, 100, 102, 52, 97, 50, 50, 98, 101, 51, 99, 57, 53, 53, 97, 99, 52, 57, 100, 97, 50, 101, 50, 49, 48, 55, 98, 54, 55, 97] := by decide +kernel

end QtPb.Md5
