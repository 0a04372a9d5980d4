import Verif.Model.Wire
/-!
# BER (X.690) and the messages of RFC 4511 as bytes

`BerOf` is the definite-length encoding of X.690 section 8.1 for tags below 31, which is what RFC 4511 section 5.1 prescribes. Lengths may
be given in the short or in the long form, with leading zero bytes.
-/
namespace Idm

/-- A value to be encoded: class, tag, and contents or parts. -/
inductive Tlv where
  | prim (c : Cls) (t : Nat) (v : Str)
  | con (c : Cls) (t : Nat) (ks : List Tlv)

/-- A number from its bytes, the most significant first. -/
def beVal : Str → Nat
  | [] => 0
  | b :: bs => b.toNat * 256 ^ bs.length + beVal bs

/-- The length octets of a length: short form or long form of up to eight bytes. -/
def LenOctets (n : Nat) (l : Str) : Prop :=
  (n < 128 ∧ l = [UInt8.ofNat n]) ∨
  ∃ ds : Str, 1 ≤ ds.length ∧ ds.length ≤ 8 ∧ beVal ds = n ∧ l = UInt8.ofNat (128 + ds.length) :: ds

/-- The identifier octet. -/
def identOctet (c : Cls) (constructed : Bool) (t : Nat) : UInt8 :=
  UInt8.ofNat ((match c with | .universal => 0 | .application => 64 | .context => 128 | .priv => 192) + (if constructed then 32 else 0) + t)

mutual
/-- `bs` is an encoding of the value. -/
inductive BerOf : Tlv → Str → Prop
  | prim (c t v l) : t < 31 → LenOctets v.length l → BerOf (.prim c t v) (identOctet c false t :: (l ++ v))
  | con (c t ks body l) : t < 31 → BerOfAll ks body → LenOctets body.length l → BerOf (.con c t ks) (identOctet c true t :: (l ++ body))
/-- `bs` is a sequence of encodings of the values. -/
inductive BerOfAll : List Tlv → Str → Prop
  | nil : BerOfAll [] []
  | cons (k ks a b) : BerOf k a → BerOfAll ks b → BerOfAll (k :: ks) (a ++ b)
end

/-- The integer with these contents octets (X.690 section 8.3): two's complement. -/
def sint (v : Str) : Int := if beVal v < 2 ^ (8 * v.length - 1) then beVal v else (beVal v : Int) - 2 ^ (8 * v.length)

mutual
/-- Universal primitives are of the types LDAP messages are made of: BOOLEAN, INTEGER, OCTET STRING, ENUMERATED, with numbers of at most 64
bits. -/
def LdapTypes : Tlv → Prop
  | .prim c t v => c = .universal → t = 4 ∨ ((t = 1 ∨ t = 2 ∨ t = 10) ∧ 1 ≤ v.length ∧ v.length ≤ 8)
  | .con _ _ ks => LdapTypesAll ks
def LdapTypesAll : List Tlv → Prop
  | [] => True
  | k :: ks => LdapTypes k ∧ LdapTypesAll ks
end

mutual
/-- The packet tree of a value: numbers, booleans and strings are decoded, the data of a constructed packet are the (shortest) encodings of
its parts. -/
def Tlv.packet : Tlv → Packet
  | .prim c t v => .mk c false t
      (if c = .universal then
        if t = 1 then .bool (sint v ≠ 0) else if t = 2 ∨ t = 10 then .int (sint v) else if t = 4 then .str v else .nil
      else .nil) v []
  | .con c t ks => .mk c true t .nil ((packets ks).flatMap berBytes) (packets ks)
def packets : List Tlv → List Packet
  | [] => []
  | k :: ks => k.packet :: packets ks
end

end Idm
