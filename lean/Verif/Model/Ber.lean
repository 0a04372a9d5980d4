import Verif.Model.Basic
/-!
# BER packets

go-asn1-ber is a dependency (v1.5.8-0.20250403174932, /repo/go.mod:14; its source is not in /repo and is modelled as published). A request is
the packet tree that `ber.ReadPacket` returns. The theorems about packets quantify over arbitrary trees, which includes trees no byte
sequence decodes to. `Model/Wire` has `ber.ReadPacket` and the responses on the level of bytes.
-/
namespace Idm

/-- `Packet.Value`: nil, or a Go string, int64, bool, or a value of another type. -/
inductive Val where
  | nil
  | str (s : Str)
  | int (i : Int)
  | bool (b : Bool)
  | other
  deriving DecidableEq, Repr

/-- `Packet.ClassType`. -/
inductive Cls where
  | universal | application | context | priv
  deriving DecidableEq, Repr

/-- `ber.Packet`: class, tag type (`cons`: constructed), tag, value, `Data` and children. -/
inductive Packet where
  | mk (cls : Cls) (cons : Bool) (tag : Nat) (val : Val) (data : Str) (kids : List Packet)
  deriving Repr

namespace Packet
def cls : Packet → Cls | mk c _ _ _ _ _ => c
def cons : Packet → Bool | mk _ k _ _ _ _ => k
def tag : Packet → Nat | mk _ _ t _ _ _ => t
def val : Packet → Val | mk _ _ _ v _ _ => v
def data : Packet → Str | mk _ _ _ _ d _ => d
def kids : Packet → List Packet | mk _ _ _ _ _ ks => ks

/-- `p.Value.(string)` without `ok`: panics if the value is not a string. -/
def mustStr (p : Packet) : Res Str :=
  match p.val with
  | .str s => .ok s
  | _ => .panic

end Packet

/-- `ber.TagBoolean`, `TagInteger`, `TagOctetString`, `TagEnumerated`, `TagSequence`, `TagSet`. -/
def tagBoolean : Nat := 1
def tagInteger : Nat := 2
def tagOctetString : Nat := 4
def tagEnumerated : Nat := 10
def tagSequence : Nat := 16
def tagSet : Nat := 17

/-! ## Encoding, `Packet.Bytes` -/

/-- The class bits of the identifier octet. -/
def clsBits : Cls → Nat
  | .universal => 0
  | .application => 64
  | .context => 128
  | .priv => 192

/-- The loop of `encodeHighTag`, without its first round: groups of 7 bits with the continuation bit. A tag has 64 bits. -/
def highTagGo : Nat → Nat → Str
  | 0, _ => []
  | fuel + 1, t => if t = 0 then [] else highTagGo fuel (t / 128) ++ [UInt8.ofNat (128 + t % 128)]

/-- `encodeIdentifier`. -/
def identBytes (c : Cls) (cons : Bool) (t : Nat) : Str :=
  if t < 31 then [UInt8.ofNat (clsBits c + (if cons then 32 else 0) + t)]
  else UInt8.ofNat (clsBits c + (if cons then 32 else 0) + 31) :: (highTagGo 9 (t / 128) ++ [UInt8.ofNat (t % 128)])

/-- `encodeUnsignedInteger`: the bytes of a 64-bit number, the first one not 0 unless it is the only one. -/
def uintGo : Nat → Nat → Str
  | 0, _ => []
  | fuel + 1, n => if n ≤ 255 then [UInt8.ofNat n] else uintGo fuel (n / 256) ++ [UInt8.ofNat (n % 256)]

/-- `encodeLength`. -/
def lengthBytes (n : Nat) : Str :=
  if n > 127 then UInt8.ofNat (128 + (uintGo 8 n).length) :: uintGo 8 n else [UInt8.ofNat n]

/-- `encodeInteger`: two's complement of a 64-bit number in as few bytes as possible. -/
def intGo : Nat → Int → Str
  | 0, _ => []
  | fuel + 1, i =>
    if -128 ≤ i ∧ i ≤ 127 then [UInt8.ofNat (i % 256).toNat] else intGo fuel (i / 256) ++ [UInt8.ofNat (i % 256).toNat]

def intBytes (i : Int) : Str := intGo 8 i

/-- `Packet.Bytes`. -/
def berBytes (p : Packet) : Str := identBytes p.cls p.cons p.tag ++ lengthBytes p.data.length ++ p.data

/-- A universal octet string as read from the wire (used in specifications and examples). -/
def octet (s : Str) : Packet := .mk .universal false tagOctetString (.str s) s []

/-- An integer as read from the wire. -/
def berInt (i : Int) : Packet := .mk .universal false tagInteger (.int i) (intBytes i) []

/-- A context-specific string as read from the wire: no value, only data. -/
def ctxStr (tag : Nat) (s : Str) : Packet := .mk .context false tag .nil s []

end Idm
