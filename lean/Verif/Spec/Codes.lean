import Verif.Basic
import Verif.Model.Descr

/-!
# Specification: the error codes the functions may return
-/

namespace Wdns.Spec

/-- `wdns_str_to_name`, `wdns_str_to_name_case`. -/
def nameTextCodes : List Res := [.parseError, .nameOverflow]

/-- `wdns_unpack_name`. -/
def unpackCodes : List Res := [.outOfBounds, .invalidCompressionPointer, .nameOverflow, .invalidLengthOctet]

/-- `wdns_parse_rdata`. -/
def rdataCodes : List Res := .parseError :: unpackCodes

/-- `wdns_parse_message`. -/
def messageCodes : List Res := .len :: .overflow :: rdataCodes

/-- `wdns_str_to_rdata`: what a field of the layout can be rejected with.  No text is accepted for the options of OPT. -/
def fieldTextCodes : Rdf → List Res
  | .name | .uname => nameTextCodes
  | .ednsOptRdata => [.failure]
  | _ => [.parseError]

end Wdns.Spec
