import Mathlib.Data.List.Forall2
import Verif.Spec.StringGrammar
import Verif.Spec.AddrGrammar
import Verif.Spec.DecodeGrammar
import Verif.Spec.NumGrammar

/-!
# Specification: the presentation format of rdata, as the library reads it

For every field type: which text at the front of the input is a field, which octets it stands for, and what text is left.  Where the
library is more lenient than the RFCs (or wrong) the leniency is spelled out here.
-/

namespace Wdns.Spec

/-- `s` starts with the word `tok`, which ends at a separator or at the end of the text; `rest` is what follows. -/
def Word (s tok rest : List UInt8) : Prop :=
  s = tok ++ rest ∧ (∀ c ∈ tok, ¬ Separator c) ∧ ∀ c, rest.head? = some c → Separator c

/-- The big-endian octets of `v`. -/
def bigEndian (k v : Nat) : List UInt8 := (List.range k).map fun i => UInt8.ofNat (v / 256 ^ (k - 1 - i))

/-- What `sscanf(…, "%02hhx", …)` reads: after white space, two hexadecimal digits; or one that no other follows; or a sign and one. -/
inductive HexAt : List UInt8 → UInt8 → Prop
  | blank {c s b} : IsBlank c → HexAt s b → HexAt (c :: s) b
  | two {c d s x y} : hexVal c = some x → hexVal d = some y → HexAt (c :: d :: s) (UInt8.ofNat (16 * x + y))
  | one {c s x} : hexVal c = some x → (∀ d, s.head? = some d → hexVal d = none) → HexAt (c :: s) (UInt8.ofNat x)
  | plus {c s x} : hexVal c = some x → HexAt (43 :: c :: s) (UInt8.ofNat x)
  | minus {c s x} : hexVal c = some x → HexAt (45 :: c :: s) (UInt8.ofNat (256 - x))

/-- Pairs of characters, each read as one octet.  (Two hexadecimal digits each in the regular case.) -/
inductive HexPairs : List UInt8 → List UInt8 → List UInt8 → Prop
  | nil {s} : HexPairs s [] s
  | cons {c d s b w rest} : HexAt (c :: d :: s) b → HexPairs s w rest → HexPairs (c :: d :: s) (b :: w) rest

/-- Pairs of hexadecimal digits separated by `-`. -/
inductive EuiReads : List UInt8 → List UInt8 → Prop
  | one {c d x y} : hexVal c = some x → hexVal d = some y → EuiReads [c, d] [UInt8.ofNat (16 * x + y)]
  | cons {c d x y t w} : hexVal c = some x → hexVal d = some y → EuiReads t w →
      EuiReads (c :: d :: 45 :: t) (UInt8.ofNat (16 * x + y) :: w)

/-- A list of type names separated by blanks. -/
inductive TypesRead : List UInt8 → List Nat → Prop
  | nil : TypesRead [] []
  | blank {c s ts} : IsBlank c → TypesRead s ts → TypesRead (c :: s) ts
  | cons {s tok rest t ts} : (∀ c, s.head? = some c → ¬ IsBlank c) → tok ≠ [] → Word s tok rest → TypeReads tok t →
      (t = 0 → tok.map lower = ascii "type0") → TypesRead rest ts → TypesRead s (t :: ts)

/-- The pieces of a text between separators `c`, empty ones left out. -/
def pieces (c : UInt8) (v : List UInt8) : List (List UInt8) := (v.splitOn c).filter (· ≠ [])

/-- The text before the first NUL. -/
def cText (v : List UInt8) : List UInt8 := v.takeWhile (· ≠ 0)

/-- The protocol ids in the text of `alpn`: separated by commas; `\,` and `\\` stand for a comma and a backslash. -/
inductive AlpnReads : List UInt8 → List (List UInt8) → Prop
  | nil : AlpnReads [] [[]]
  | char {c t i is} : c ≠ 44 → c ≠ 92 → AlpnReads t (i :: is) → AlpnReads (c :: t) ((c :: i) :: is)
  | esc {d t i is} : d = 44 ∨ d = 92 → AlpnReads t (i :: is) → AlpnReads (92 :: d :: t) ((d :: i) :: is)
  | comma {t is} : AlpnReads t is → AlpnReads (44 :: t) ([] :: is)

/-- The length the library computes for `alpn`: that of the ids with their length octets, except that a last id without octets (or
with a multiple of 256) is not counted and lengths are taken modulo 256. -/
def alpnLength : List (List UInt8) → Nat
  | [] => 0
  | [i] => if i.length % 256 = 0 then 0 else i.length % 256 + 1
  | i :: is => i.length % 256 + 1 + alpnLength is

/-- The value `w` (after the string has been read) of the parameter `k` gives the octets `v`, of declared length `n`. -/
def ValueReads (k : Nat) (w v : List UInt8) (n : Nat) : Prop :=
  if k = 0 then pieces 44 (cText w) ≠ [] ∧ n = v.length ∧
    ∃ ks, List.Forall₂ KeyReads (pieces 44 (cText w)) ks ∧ v = ks.flatMap net16
  else if k = 1 then ∃ ids, AlpnReads w ids ∧ v = ids.flatMap encString ∧ n = alpnLength ids
  else if k = 3 then ∃ tok p, (pieces 32 (cText w)).head? = some tok ∧ UReads tok p ∧ p ≤ 65535 ∧ v = net16 p ∧ n = 2
  else if k = 4 then pieces 44 (cText w) ≠ [] ∧ n = v.length ∧
    ∃ as, List.Forall₂ Ip4Reads (pieces 44 (cText w)) as ∧ v = as.flatten
  else if k = 5 then ∃ tok, (pieces 32 (cText w)).head? = some tok ∧ tok.length ≤ 255 ∧ 123 ∉ tok ∧ v = unpack64 (tok.filterMap b64Val) ∧
    n = v.length
  else if k = 6 then pieces 44 (cText w) ≠ [] ∧ n = v.length ∧
    ∃ as, List.Forall₂ Ip6Reads (pieces 44 (cText w)) as ∧ v = as.flatten
  else v = w ∧ n = w.length

/-- A list of service parameters, and their octets: spaces; `no-default-alpn`; `key=value` where the value is a character string.
The length is written modulo 65536. -/
inductive SvcReads : List UInt8 → List UInt8 → Prop
  | nil : SvcReads [] []
  | space {s w} : SvcReads s w → SvcReads (32 :: s) w
  | flag {key s w} : 61 ∉ key → 32 ∉ key → KeyReads key 2 → (∀ c, s.head? = some c → c = 32) → SvcReads s w →
      SvcReads (key ++ s) (net16 2 ++ net16 0 ++ w)
  | param {key s x rest k v n w} : 61 ∉ key → 32 ∉ key → KeyReads key k → k ≠ 2 → StringReads s x rest →
      ValueReads k x v n → SvcReads rest w → SvcReads (key ++ 61 :: s) (net16 k ++ net16 (n % 65536) ++ v ++ w)

/-- One field at the start of `s` (which does not start with white space): its octets and the text that is left. -/
inductive FieldReads : Rdf → List UInt8 → List UInt8 → List UInt8 → Prop
  | name {t s tok rest n} : t = .name ∨ t = .uname → Word s tok rest → NameReads id tok n → (wire n).length ≤ 255 →
      FieldReads t s (wire n) rest
  | int {t k s tok rest} : (t, k) ∈ [(Rdf.int8, 1), (.int16, 2), (.int32, 4)] → Word s tok rest → (∀ c ∈ tok, IsDigit c) →
      decVal tok < 256 ^ k → FieldReads t s (bigEndian k (decVal tok)) rest
  | ipv4 {s tok rest f} : Word s tok rest → Ip4Reads tok f → FieldReads .ipv4 s f rest
  | ipv6 {s tok rest f} : Word s tok rest → Ip6Reads tok f → FieldReads .ipv6 s f rest
  | rrtype {s tok rest t} : Word s tok rest → TypeReads tok t → t ≠ 0 → FieldReads .rrtype s (net16 t) rest
  | noSalt {s rest} : Word s [45] rest → FieldReads .salt s [0] rest
  | salt {s tok rest w rest'} : Word s tok rest → tok ≠ [45] → tok.length ≤ 510 → 2 * w.length = tok.length → HexPairs s w rest' →
      FieldReads .salt s (encString w) rest'
  | noHash {s c rest} : Word s [c] rest → FieldReads .hash s [0] rest
  | hash {s tok rest} : Word s tok rest → tok.length ≠ 1 → (∀ c ∈ tok, c = 61 ∨ b32Val c ≠ none) →
      (unpack32 ((tok.takeWhile (· ≠ 61)).filterMap b32Val)).length ≤ 255 →
      FieldReads .hash s (encString (unpack32 ((tok.takeWhile (· ≠ 61)).filterMap b32Val))) rest
  | string {s w rest} : StringReads s w rest → w.length ≤ 255 → FieldReads .string s (encString w) rest
  | repstring {s ws} : TxtReads s ws → FieldReads .repstring s (ws.flatMap encString) []
  | bytes {s w} : HexPairs s w [] → FieldReads .bytes s w []
  | bytesB64 {s} : 123 ∉ s → FieldReads .bytesB64 s (unpack64 (s.filterMap b64Val)) (s.drop (unpack64 (s.filterMap b64Val)).length)
  | bytesStr {s w rest} : 3 ≤ s.length → s.head? = some 34 → s.getLast? = some 34 → StringReads s w rest → FieldReads .bytesStr s w []
  | eui48 {s w} : EuiReads s w → w.length = 6 → FieldReads .eui48 s w []
  | eui64 {s w} : EuiReads s w → w.length = 8 → FieldReads .eui64 s w []
  | bitmap {s ts f} : TypesRead s ts → CanonBitmap f (· ∈ ts) → FieldReads .typeBitmap s f []
  | svcparams {s w} : SvcReads s w → FieldReads .svcparams s w []
  | prefixFull {s tok rest b s' tok' rest' pl a} : Word s tok rest → (∀ c ∈ tok, IsDigit c) →
      pl = min (decVal tok) (2 ^ 64 - 1) % 256 → pl ≤ 128 →
      rest = b ++ s' → (∀ c ∈ b, IsBlank c) → (∀ c, s'.head? = some c → ¬ IsBlank c) → Word s' tok' rest' → Ip6Reads tok' a →
      (pl = 0 → ∀ c ∈ rest', IsBlank c) →
      FieldReads .ipv6prefix s (UInt8.ofNat pl :: a.drop (16 - (128 - pl + 7) / 8)) (if pl = 0 then [] else rest')
  | prefixNone {s tok rest b s' tok' rest'} : Word s tok rest → (∀ c ∈ tok, IsDigit c) →
      min (decVal tok) (2 ^ 64 - 1) % 256 = 128 →
      rest = b ++ s' → (∀ c ∈ b, IsBlank c) → s' ≠ [] → (∀ c, s'.head? = some c → ¬ IsBlank c) → Word s' tok' rest' →
      (∀ a, ¬ Ip6Reads tok' a) → FieldReads .ipv6prefix s [128] s'

/-- The text `s` read as fields of the types `ts`: the octets.  The text may end early, and what follows the last field is ignored. -/
inductive Scanned : List Rdf → List UInt8 → List UInt8 → Prop
  | done {s} : Scanned [] s []
  | stop {t ts s} : (∀ c ∈ s, IsBlank c) → Scanned (t :: ts) s []
  | field {t ts b s f rest w} : (∀ c ∈ b, IsBlank c) → s ≠ [] → (∀ c, s.head? = some c → ¬ IsBlank c) → FieldReads t s f rest →
      Scanned ts rest w → Scanned (t :: ts) (b ++ s) (f ++ w)

/-- Pairs of characters, each read as one octet, with white space between the pairs. -/
inductive HexRead : List UInt8 → List UInt8 → Prop
  | nil : HexRead [] []
  | blank {c s w} : IsBlank c → HexRead s w → HexRead (c :: s) w
  | pair {c d s b w} : ¬ IsBlank c → HexAt (c :: d :: s) b → HexRead s w → HexRead (c :: d :: s) (b :: w)

/-- The generic form of RFC 3597: `\\#`, white space, the number of octets, the octets in hexadecimal.  The number is read into 64 bits
and taken modulo 65536. -/
def GenericReads (s w : List UInt8) : Prop :=
  ∃ b ds h, s = ascii "\\#" ++ b ++ ds ++ h ∧ b ≠ [] ∧ (∀ c ∈ b, IsBlank c) ∧ ds ≠ [] ∧ (∀ c ∈ ds, IsDigit c) ∧
    (∀ c, h.head? = some c → IsBlank c) ∧ HexRead h w ∧ w.length = min (decVal ds) (2 ^ 64 - 1) % 65536

end Wdns.Spec
