import Verif.Model.Prelude
/-!
# hash/fnv 128a and encoding/hex, as used by pkg/renderables/catalog.go:53-57 and pkg/cache/cache.go:39-41
-/
namespace Telefacts

/-- `[]byte(s)` as numbers: the UTF-8 bytes. -/
def bytesOf (s : String) : List Nat := s.toList.flatMap (fun c => (String.utf8EncodeChar c).map UInt8.toNat)

/-- Go `hash/fnv`: `offset128Higher`, `offset128Lower`. -/
def fnvOffset : Nat := 0x6c62272e07bb014262b821756295c58d
/-- Go `hash/fnv`: the 128 bit prime `2^88 + 0x13b`. -/
def fnvPrime : Nat := 0x0000000001000000000000000000013B

/-- Go `hash/fnv` `(*sum128a).Write`: xor the byte, multiply modulo 2^128. -/
def fnv128a (bs : List Nat) : Nat :=
  bs.foldl (fun h b => ((h ^^^ b) * fnvPrime) % 2 ^ 128) fnvOffset

/-- `Sum([]byte{})`: 16 bytes, big endian. -/
def sumBytes (h : Nat) : List Nat := (List.range 16).map (fun i => h / 256 ^ (15 - i) % 256)

/-- The hex alphabet. -/
def hexDigits : List Char := ['0','1','2','3','4','5','6','7','8','9','a','b','c','d','e','f']

/-- One hex digit. -/
def hexDigit (n : Nat) : Char := hexDigits.getD n '0'

/-- `hex.EncodeToString` -/
def hexEncode (bs : List Nat) : List Char := bs.flatMap (fun b => [hexDigit (b / 16), hexDigit (b % 16)])

/-- `h := fnv.New128a(); h.Write([]byte(s)); hex.EncodeToString(h.Sum([]byte{}))`. -/
def fnvHex (s : String) : String := String.ofList (hexEncode (sumBytes (fnv128a (bytesOf s))))

end Telefacts
