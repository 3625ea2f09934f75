import Verif.Spec.Heap
import Verif.Model.TextHeap

/-!
# Specification: programs that use the library

A program holds objects: messages, RRsets, and blocks that were handed to it (texts, octets of rdata, names).  It calls the functions of the library in any order, as often as
it likes, on whatever it holds.
-/

namespace Wdns.Spec

/-- What a program holds. -/
inductive Held
  | msg (m : HMsg)
  | set (s : HRRset)
  | block (b : Nat)

/-- The blocks that belong to it. -/
def Held.blocks : Held → List Nat
  | .msg m => m.blocks
  | .set s => s.blocks
  | .block b => [b]

/-- One call of the library, which returns: the heap and what the program holds, before and after.  A message or an RRset is held after a failing call too, it may be cleared
all the same, and it is still held after it has been cleared, so it may be cleared again; a block is no longer held after `free`. -/
inductive Call : Heap → List Held → Heap → List Held → Prop
  | parse {mem len h r m h' L} : hParseMessage mem len h = .ok (r, m, h') → Call h L h' (.msg m :: L)
  | deserialize {le buf sz h r s h' L} : hDeserializeRrset le buf sz h = .ok (r, s, h') → Call h L h' (.set s :: L)
  | name {s d h n b h' L} : hStrToNameGen s d h = .ok (.ok (n, b), h') → Call h L h' (.block b :: L)
  | nameFails {s d h e h' L} : hStrToNameGen s d h = .ok (.error e, h') → Call h L h' L
  | rdata {s ty cls h w b h' L} : hStrToRdata s ty cls h = .ok (.ok (w, b), h') → Call h L h' (.block b :: L)
  | rdataFails {s ty cls h e h' L} : hStrToRdata s ty cls h = .ok (.error e, h') → Call h L h' L
  | text {text h t b h' L} : hToStr text h = .ok ((t, b), h') → Call h L h' (.block b :: L)
  | messageText {m h t b h' L} : hMessageToStr m h = .ok ((t, b), h') → Call h L h' (.block b :: L)
  | clear {m h m' h' A B} : hClearMessage m h = .ok (m', h') → Call h (A ++ .msg m :: B) h' (A ++ .msg m' :: B)
  | clearSet {s h s' h' A B} : hClearRrset s h = .ok (s', h') → Call h (A ++ .set s :: B) h' (A ++ .set s' :: B)
  | free {b h h' A B} : h.free (some b) = .ok h' → Call h (A ++ .block b :: B) h' (A ++ B)

/-- The heaps and objects that a program can get at, starting with nothing.  Between two calls the allocator may number the blocks that it will give out next as it likes, so
that released numbers can come again. -/
inductive Reach : Heap → List Held → Prop
  | start {h} : h.live = [] → Reach h []
  | call {h L h' h'' L'} : Reach h L → Call h L h' L' → h''.live = h'.live → h''.Wf → Reach h'' L'

end Wdns.Spec
