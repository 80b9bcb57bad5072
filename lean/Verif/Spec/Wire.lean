import Verif.Spec.Crc

/-!
# Reference description of the three wire formats
-/

namespace Zinx.Spec

open Zinx

/-- Four bytes, most significant first. -/
def be32 (n : Nat) : Bytes :=
  [UInt8.ofNat (n / 2 ^ 24), UInt8.ofNat (n / 2 ^ 16), UInt8.ofNat (n / 2 ^ 8), UInt8.ofNat n]

/-- Four bytes, least significant first. -/
def le32 (n : Nat) : Bytes := (be32 n).reverse

/-- Type, length, value; big endian. -/
def tlvWire (id : UInt32) (payload : Bytes) : Bytes := be32 id.toNat ++ be32 payload.length ++ payload

/-- Length, type, value; little endian. -/
def ltvWire (id : UInt32) (payload : Bytes) : Bytes := le32 payload.length ++ le32 id.toNat ++ payload

/-- Head, function code, length, body, checksum. -/
def htlvWire (head funcode : UInt8) (body : Bytes) : Bytes :=
  (head :: funcode :: UInt8.ofNat body.length :: body) ++
    crcTrailer (head :: funcode :: UInt8.ofNat body.length :: body)

end Zinx.Spec
