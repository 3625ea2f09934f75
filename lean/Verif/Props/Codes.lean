import Verif.Lemmas.ScanBad
import Verif.Model.Parse
import Verif.Spec.Codes
import Verif.Props.Message

/-!
# C101: which error codes the functions return
-/

namespace Wdns
open Outcome

/-- If there is an error its code is one of these. -/
structure Outcome.In {α : Type} (cs : List Res) (o : Outcome α) : Prop where
  mem : ∀ e, o = err e → e ∈ cs

theorem Outcome.In.bind {α β : Type} {cs} {o : Outcome α} {f : α → Outcome β} (h : o.In cs) (hf : ∀ a, (f a).In cs) : (o >>= f).In cs := by
  refine ⟨fun e he => ?_⟩
  cases o with
  | ok a => exact (hf a).mem e he
  | err e' =>
    simp only [Bind.bind, Outcome.bind, err.injEq] at he
    exact h.mem e (by rw [he])
  | ub => simp [Bind.bind, Outcome.bind] at he
  | hang => simp [Bind.bind, Outcome.bind] at he
  | abort => simp [Bind.bind, Outcome.bind] at he

theorem In.ok {α : Type} {cs} (a : α) : (ok a : Outcome α).In cs := ⟨by simp⟩
theorem In.ub {α : Type} {cs} : (ub : Outcome α).In cs := ⟨by simp⟩
theorem In.hang {α : Type} {cs} : (hang : Outcome α).In cs := ⟨by simp⟩
theorem In.err {α : Type} {cs} {e} (h : e ∈ cs) : (err e : Outcome α).In cs := ⟨by intro e' he; simp only [err.injEq] at he; rw [← he]; exact h⟩
theorem In.ite {α : Type} {cs} {c : Prop} [Decidable c] {a b : Outcome α} (ha : a.In cs) (hb : b.In cs) : (if c then a else b).In cs := by split <;> assumption
theorem In.mono {α : Type} {cs ds : List Res} {o : Outcome α} (h : o.In cs) (hs : ∀ e ∈ cs, e ∈ ds) : o.In ds := ⟨fun e he => hs e (h.mem e he)⟩

theorem rd_in {cs} (m : List UInt8) (p : Nat) : (rd m p).In cs := by unfold rd; split <;> [exact In.ok _; exact In.ub]
theorem rdS_in {cs} (m : List UInt8) (p : Nat) : (rdS m p).In cs := by unfold rdS; split <;> [exact In.ok _; (split <;> [exact In.ok _; exact In.ub])]
theorem rdN_in {cs} (m : List UInt8) (p n : Nat) : (rdN m p n).In cs := by unfold rdN; split <;> [exact In.ok _; exact In.ub]
theorem wr_in {cs} (n : Nat) (d : List UInt8) (b : UInt8) : (wr n d b).In cs := by unfold wr; split <;> [exact In.ok _; exact In.ub]
theorem wrN_in {cs} (n : Nat) (d b : List UInt8) : (wrN n d b).In cs := by unfold wrN; split <;> [exact In.ok _; exact In.ub]

/-- Go through the body of a function. -/
macro "codes" : tactic => `(tactic| repeat' (first
  | assumption
  | exact In.ok _ | exact In.ub | exact In.hang | exact In.err (by decide)
  | exact rd_in _ _ | exact rdS_in _ _ | exact rdN_in _ _ _ | exact wr_in _ _ _ | exact wrN_in _ _ _
  | refine Outcome.In.bind ?_ fun _ => ?_
  | refine In.ite ?_ ?_
  | split
  | simp only))

theorem unpackLoop_in (cap : Nat) (mem : List UInt8) (p eop : Nat) : ∀ fuel src out total, (unpackLoop cap mem p eop fuel src out total).In Spec.unpackCodes
  | 0, _, _, _ => In.hang
  | fuel + 1, src, out, total => by
    have ih := unpackLoop_in cap mem p eop fuel
    rw [unpackLoop.eq_def]
    dsimp only
    codes
    all_goals exact ih _ _ _

theorem unpackName_in (cap : Nat) (mem : List UInt8) (p eop src : Nat) : (unpackName cap mem p eop src).In Spec.unpackCodes := by
  rw [unpackName]
  exact In.ite (In.err (by decide)) (unpackLoop_in ..)

theorem skipLoop_in {cs} (mem : List UInt8) (eod : Nat) : ∀ fuel src, (skipLoop mem eod fuel src).In cs
  | 0, _ => In.hang
  | fuel + 1, src => by
    have ih := skipLoop_in (cs := cs) mem eod fuel
    rw [skipLoop.eq_def]
    dsimp only
    codes
    all_goals exact ih _

theorem skipName_in {cs} (mem : List UInt8) (data eod : Nat) : (skipName mem data eod).In cs := by
  rw [skipName]
  exact .bind (skipLoop_in ..) fun _ => In.ok _

theorem stnLoop_in (cap : Nat) (str : List UInt8) (dc : Bool) : ∀ (fuel p : Nat) (slen : Int) (ll len : Nat) (data : List UInt8) (oc : Nat),
    (stnLoop cap str dc fuel p slen ll len data oc).In Spec.nameTextCodes
  | 0, _, _, _, _, _, _ => In.hang
  | fuel + 1, p, slen, ll, len, data, oc => by
    have ih := stnLoop_in cap str dc fuel
    rw [stnLoop.eq_def]
    dsimp only
    codes
    all_goals exact ih _ _ _ _ _ _

theorem strToNameGen_in (s : List UInt8) (dc : Bool) : (strToNameGen s dc).In Spec.nameTextCodes := by
  unfold strToNameGen
  split
  · exact In.ok _
  · exact stnLoop_in ..

/-! ## Parsing -/

theorem pCopy_in (mem : List UInt8) (st : PState) (x : Nat) : (pCopy mem st x).In Spec.rdataCodes := by
  rw [pCopy]; codes

theorem pRepstring_in (mem : List UInt8) : ∀ fuel st, (pRepstring mem fuel st).In Spec.rdataCodes
  | 0, _ => In.hang
  | fuel + 1, st => by
    rw [pRepstring.eq_def]
    dsimp only
    exact In.ite (.bind (rd_in ..) fun _ => .bind (pCopy_in ..) fun _ => pRepstring_in mem fuel _) (In.ok _)

theorem pBitmap_in (mem : List UInt8) : ∀ fuel st, (pBitmap mem fuel st).In Spec.rdataCodes
  | 0, _ => In.hang
  | fuel + 1, st => by
    rw [pBitmap.eq_def]
    dsimp only
    exact In.ite (.bind (rd_in ..) fun _ => In.ite (In.err (by decide)) (In.ite (.bind (pCopy_in ..) fun _ => pBitmap_in mem fuel _) (In.err (by decide)))) (In.ok _)

theorem alpnLoop_in {cs} (mem : List UInt8) (val valLen : Nat) : ∀ fuel i, (alpnLoop mem val valLen fuel i).In cs
  | 0, _ => In.hang
  | fuel + 1, i => by
    rw [alpnLoop.eq_def]
    dsimp only
    exact In.ite (.bind (rd_in ..) fun _ => alpnLoop_in mem val valLen fuel _) (In.ok _)

theorem validate_in {cs} (mem : List UInt8) (key valLen val : Nat) : (svcparamKeyValidate mem key valLen val).In cs := by
  unfold svcparamKeyValidate
  codes
  exact alpnLoop_in ..

theorem pSvcparams_in (mem : List UInt8) : ∀ fuel st, (pSvcparams mem fuel st).In Spec.rdataCodes
  | 0, _ => In.hang
  | fuel + 1, st => by
    rw [pSvcparams.eq_def]
    dsimp only
    refine In.ite (In.ite (In.err (by decide)) ?_) (In.ok _)
    refine .bind (rd_in ..) fun _ => .bind (rd_in ..) fun _ => .bind (rd_in ..) fun _ => .bind (rd_in ..) fun _ => ?_
    refine In.ite (In.err (by decide)) (.bind (validate_in ..) fun _ => ?_)
    exact In.ite (In.err (by decide)) (.bind (pCopy_in ..) fun _ => pSvcparams_in mem fuel _)

theorem pField_in (mem : List UInt8) (p eop : Nat) (t : Rdf) (st : PState) : (pField mem p eop t st).In Spec.rdataCodes := by
  have hu := fun a b c => In.mono (ds := Spec.rdataCodes) (unpackName_in maxlenName mem a b c) (fun e he => List.mem_cons_of_mem _ he)
  cases t <;> simp only [pField]
  all_goals first
    | exact pCopy_in ..
    | exact pRepstring_in ..
    | exact pBitmap_in ..
    | exact pSvcparams_in ..
    | exact .bind (rd_in ..) fun _ => pCopy_in ..
    | exact .bind (hu _ _ _) fun _ => .bind (skipName_in ..) fun _ => In.ite (In.err (by decide)) (In.ok _)
    | exact .bind (rd_in ..) fun _ => In.ite (In.err (by decide)) (pCopy_in ..)

theorem pFields_in (mem : List UInt8) (p eop : Nat) : ∀ ts st, (pFields mem p eop ts st).In Spec.rdataCodes
  | [], _ => In.ok _
  | t :: ts, st => by
    rw [pFields]
    exact In.ite (In.ok _) (.bind (pField_in ..) fun _ => pFields_in mem p eop ts _)

theorem parseRdata_in (mem : List UInt8) (p eop rdata rdlen t c : Nat) : (parseRdata mem p eop rdata rdlen t c).In Spec.rdataCodes := by
  rw [parseRdata]
  dsimp only
  split
  · exact .bind (pCopy_in ..) fun _ => In.ok _
  · exact In.ite (.bind (pFields_in ..) fun _ => In.ite (.bind (In.err (by decide)) fun _ => In.ok _) (In.ok _)) (.bind (pCopy_in ..) fun _ => In.ok _)

/-- The codes of a record. -/
def recCodes : List Res := .overflow :: Spec.rdataCodes

theorem parseMessageRr_in (sec : Nat) (mem : List UInt8) (p eop data : Nat) : (parseMessageRr sec mem p eop data).In recCodes := by
  have hu := In.mono (ds := recCodes) (unpackName_in maxlenName mem p eop data) (fun e he => by simp [recCodes, Spec.rdataCodes, he])
  have hp := fun a b c d => In.mono (ds := recCodes) (parseRdata_in mem p eop a b c d) (fun e he => List.mem_cons_of_mem _ he)
  rw [parseMessageRr]
  refine .bind hu fun _ => .bind (skipName_in ..) fun _ => ?_
  codes
  exact hp _ _ _ _

theorem In.abort {α : Type} {cs} : (abort : Outcome α).In cs := ⟨by simp⟩

theorem downcaseBytes_in {cs} : ∀ (n : Nat) (d : List UInt8), (downcaseBytes n d).In cs
  | 0, _ => In.ok _
  | n + 1, [] => In.ub
  | n + 1, c :: d => .bind (downcaseBytes_in n d) fun _ => In.ok _

theorem compareRrRrset_in {cs} (rr : RR) (s : RRset) : (compareRrRrset rr s).In cs := by
  have hd : ∀ c : CName, (downcaseName c).In cs := fun c => by unfold downcaseName; exact .bind (downcaseBytes_in ..) fun _ => In.ok _
  rw [compareRrRrset]
  exact In.ite (.bind (rdN_in ..) fun _ => .bind (hd _) fun _ => .bind (rdN_in ..) fun _ => .bind (hd _) fun _ => In.ok _) (In.ok _)

theorem insertFind_in {cs} (rr : RR) : ∀ ss, (insertFind rr ss).In cs
  | [] => In.ok _
  | s :: rest => by
    rw [insertFind]
    refine .bind (compareRrRrset_in ..) fun _ => In.ite (In.ite In.abort ?_) (.bind (insertFind_in rr rest) fun _ => In.ok _)
    split
    · exact In.ub
    · exact In.ok _

theorem copyRR_in {cs} (rr : RR) (sec : Nat) : (copyRR rr sec).In cs := by
  rw [copyRR]
  refine .bind (rdN_in ..) fun _ => ?_
  dsimp only
  split
  · split
    · exact .bind In.ub fun _ => In.ok _
    · exact .bind (rdN_in ..) fun _ => In.ok _
  · exact In.ok _

theorem insertRr_in {cs} (arr : RRsetArray) (rr : RR) (sec : Nat) : (insertRr arr rr sec).In cs := by
  rw [insertRr]
  refine In.ite In.abort (.bind (copyRR_in ..) fun r => ?_)
  dsimp only
  split
  · exact In.ite In.abort (In.ok _)
  · refine .bind (insertFind_in ..) fun o => ?_
    split
    · exact In.ok _
    · exact In.ite In.abort (In.ok _)

theorem parseSection_in (sec : Nat) (mem : List UInt8) (len : Nat) : ∀ n st, (parseSection sec mem len n st).In recCodes
  | 0, _ => In.ok _
  | n + 1, st => by
    rw [parseSection]
    exact In.ite (In.ok _) (.bind (parseMessageRr_in ..) fun _ => In.ite (parseSection_in sec mem len n _) (.bind (insertRr_in ..) fun _ => parseSection_in sec mem len n _))

theorem parseSections_in (mem : List UInt8) (len : Nat) : ∀ secs p hdr done, (parseSections mem len secs p hdr done).In recCodes
  | [], _, _, _ => In.ok _
  | (sec, count) :: rest, p, hdr, done => by
    rw [parseSections]
    exact .bind (parseSection_in ..) fun _ => In.ite (In.ok _) (parseSections_in mem len rest _ _ _)

theorem message_in (mem : List UInt8) (len : Nat) (h : ¬ len < 12) : (parseMessage mem len).In recCodes := by
  rw [parseMessage, if_neg h]
  exact .bind (rdN_in ..) fun _ => .bind (parseSections_in ..) fun _ => In.ok _

/-- **C101**: a parsed name fails with one of four codes, rdata with one of five, a message with one of seven. -/
theorem C101_parse (mem : List UInt8) (e : Res) :
    (∀ cap p eop src, unpackName cap mem p eop src = err e → e ∈ Spec.unpackCodes) ∧
    (∀ p eop o n t c, parseRdata mem p eop o n t c = err e → e ∈ Spec.rdataCodes) ∧
    (∀ len, parseMessage mem len = err e → e ∈ Spec.messageCodes) := by
  refine ⟨fun _ _ _ _ => (unpackName_in ..).mem e, fun _ _ _ _ _ _ => (parseRdata_in ..).mem e, fun len h => ?_⟩
  by_cases hl : len < 12
  · rw [parseMessage, if_pos hl, err.injEq] at h
    rw [← h]; decide
  · exact List.mem_cons_of_mem _ ((message_in mem len hl).mem e h)

/-- A case of `C101_parse`: a packet of eleven octets is refused with a code of the list. -/
example : Res.len ∈ Spec.messageCodes := (C101_parse (List.replicate 11 0) .len).2.2 11 (by decide +kernel)

/-- **C101**: a message is rejected as too short exactly if it has no room for the header. -/
theorem C101_short (mem : List UInt8) (len : Nat) : parseMessage mem len = err .len ↔ len < 12 := by
  constructor
  · intro h
    by_cases hl : len < 12
    · exact hl
    · exact absurd ((message_in mem len hl).mem _ h) (by decide)
  · intro h
    rw [parseMessage, if_pos h]

/-- **C101**: every one of the seven codes is returned for some message. -/
theorem C101_attained : ∀ e ∈ Spec.messageCodes, ∃ msg : List UInt8, parseMessage msg msg.length = err e := by
  have w : ∀ {e : Res} (x : List UInt8), parseMessage x x.length = err e → ∃ msg : List UInt8, parseMessage msg msg.length = err e := fun x h => ⟨x, h⟩
  intro e he
  simp only [Spec.messageCodes, Spec.rdataCodes, Spec.unpackCodes, List.mem_cons, List.not_mem_nil, or_false] at he
  rcases he with rfl | rfl | rfl | rfl | rfl | rfl | rfl
  · exact w [] (by decide +kernel)
  · exact w [0, 0, 0, 0, 0, 0, 0, 1, 0, 0, 0, 0, 0, 0, 1, 0, 1, 0, 0, 0, 0, 0, 4, 1] (by decide +kernel)
  · exact w [0, 0, 0, 0, 0, 0, 0, 1, 0, 0, 0, 0, 0, 0] (by decide +kernel)
  · exact w [0, 0, 0, 0, 0, 1, 0, 0, 0, 0, 0, 0, 5, 97] (by decide +kernel)
  · exact w [0, 0, 0, 0, 0, 1, 0, 0, 0, 0, 0, 0, 192, 12, 0, 1, 0, 1] (by decide +kernel)
  · exact w ([0, 0, 0, 0, 0, 1, 0, 0, 0, 0, 0, 0] ++ (List.replicate 128 [1, 97]).flatten ++ [0, 0, 1, 0, 1]) (by decide +kernel)
  · exact w [0, 0, 0, 0, 0, 1, 0, 0, 0, 0, 0, 0, 64, 0] (by decide +kernel)

/-! ## Reading rdata -/

/-- If a field is rejected, by `goto err` or otherwise, the code is one of these. -/
structure Outcome.FIn (cs : List Res) (o : Outcome FRes) : Prop where
  errs : o.In cs
  bads : ∀ r u, o = ok (.bad r u) → r ∈ cs

namespace FIn
theorem go {cs p u} : Outcome.FIn cs (Outcome.ok (.go p u)) := ⟨In.ok _, by simp⟩
theorem bad {cs r u} (h : r ∈ cs) : Outcome.FIn cs (Outcome.ok (.bad r u)) := ⟨In.ok _, by intro r' u' he; simp only [ok.injEq, FRes.bad.injEq] at he; rw [← he.1]; exact h⟩
theorem ub {cs} : Outcome.FIn cs Outcome.ub := ⟨In.ub, by simp⟩
theorem hang {cs} : Outcome.FIn cs Outcome.hang := ⟨In.hang, by simp⟩
theorem abort {cs} : Outcome.FIn cs Outcome.abort := ⟨In.abort, by simp⟩
theorem ite {cs} {c : Prop} [Decidable c] {a b : Outcome FRes} (ha : a.FIn cs) (hb : b.FIn cs) : Outcome.FIn cs (if c then a else b) := by split <;> assumption
theorem bind {α : Type} {cs} {o : Outcome α} {f : α → Outcome FRes} (h : o.In cs) (hf : ∀ a, o = ok a → (f a).FIn cs) : Outcome.FIn cs (o >>= f) := by
  cases o with
  | ok a => exact hf a rfl
  | err e => exact ⟨⟨fun e' he => h.mem e' (by simpa [Bind.bind, Outcome.bind] using he)⟩, fun r u he => by simp [Bind.bind, Outcome.bind] at he⟩
  | ub => exact ub
  | hang => exact hang
  | abort => exact abort
end FIn

theorem sBytes_fin (s u : List UInt8) : (sBytes s u).FIn [.parseError] := by
  fun_induction sBytes s u
  · exact FIn.go
  · exact FIn.bad (by decide)
  · exact FIn.ub
  · exact FIn.bad (by decide)
  · assumption

theorem sSalt_fin (n : Nat) (s u : List UInt8) : (sSalt n s u).FIn [.parseError] := by
  fun_induction sSalt n s u
  · exact FIn.go
  · exact FIn.ub
  · exact FIn.bad (by decide)
  · assumption

theorem sGeneric_in {cs} (s : List UInt8) (n : Nat) (u : List UInt8) : (sGeneric s n u).In cs := by
  fun_induction sGeneric s n u
  all_goals first | assumption | exact In.ok _ | exact In.ub

theorem sUnknown_fin (s u : List UInt8) : (sUnknown s u).FIn [.parseError] := by
  rw [sUnknown]
  dsimp only
  refine FIn.ite (FIn.bad (by decide)) (FIn.ite (FIn.ite ?_ (FIn.bad (by decide))) (FIn.bad (by decide)))
  split
  · exact FIn.ub
  · exact FIn.bad (by decide)
  · exact FIn.bind (sGeneric_in ..) fun _ _ => FIn.ite FIn.go (FIn.bad (by decide))

theorem sRepstring_fin : ∀ (n : Nat) (s u : List UInt8), (sRepstring n s u).FIn [.parseError]
  | 0, _, _ => FIn.hang
  | n + 1, s, u => by
    rw [sRepstring.eq_def]
    dsimp only
    split
    · exact FIn.go
    · exact FIn.ite (sRepstring_fin n _ _) (FIn.ite (FIn.bad (by decide)) (FIn.ite (FIn.bad (by decide)) (sRepstring_fin n _ _)))

/-- The code is success or a parse error. -/
def OkOrParse (r : Res) : Prop := r = .success ∨ r = .parseError

theorem svcMandTok_code : ∀ (ts : List (List UInt8)) (n : Nat) (u : List UInt8), OkOrParse (svcMandTok ts n u).1
  | [], _, _ => .inl rfl
  | t :: ts, n, u => by
    rw [svcMandTok]
    split
    · exact .inr rfl
    · exact svcMandTok_code ts _ _

theorem svcIpTok_code (pton : List UInt8 → Option (List UInt8)) (sz : Nat) : ∀ (ts : List (List UInt8)) (n : Nat) (u : List UInt8), OkOrParse (svcIpTok pton sz ts n u).1
  | [], _, _ => .inl rfl
  | t :: ts, n, u => by
    rw [svcIpTok]
    split
    · exact .inr rfl
    · exact svcIpTok_code pton sz ts _ _

theorem svcAlpnTok_code (s : List UInt8) (off oc n : Nat) (u : List UInt8) : OkOrParse (svcAlpnTok s off oc n u).1 := by
  fun_induction svcAlpnTok s off oc n u
  all_goals first | assumption | exact .inl rfl | exact .inr rfl

theorem svcPortTok_code (c u : List UInt8) : OkOrParse (svcPortTok c u).1 := by
  rw [svcPortTok]
  split
  · exact .inr rfl
  · dsimp only
    split
    · exact .inr rfl
    · exact .inl rfl

theorem b64_in {cs} (cap : Nat) (st : B64DStep) (cur : Nat) (s out : List UInt8) : (b64DecodeLoop cap st cur s out).In cs := by
  induction s generalizing st cur out with
  | nil => rw [b64DecodeLoop]; exact In.ite (In.ok _) In.ub
  | cons c s ih =>
    rw [b64DecodeLoop]
    refine .bind ?_ fun v => ?_
    · rw [b64DecodeValue]
      refine In.ite (In.ok _) ?_
      split
      · exact In.ub
      · exact In.ok _
    · split
      · exact ih _ _ _
      · split <;> exact In.ite (ih _ _ _) In.ub

theorem svcEchTok_code (c u : List UInt8) : (svcEchTok c u).In [.parseError] ∧ ∀ x, svcEchTok c u = ok x → OkOrParse x.1 := by
  rw [svcEchTok]
  split
  · exact ⟨In.ok _, fun x h => by rw [ok.injEq] at h; rw [← h]; exact .inr rfl⟩
  · refine ⟨In.ite (In.ok _) (.bind (b64_in ..) fun _ => In.ok _), fun x h => ?_⟩
    split at h
    · rw [ok.injEq] at h; rw [← h]; exact .inr rfl
    · rw [bind_eq_ok] at h
      obtain ⟨b, _, h⟩ := h
      rw [ok.injEq] at h; rw [← h]; exact .inl rfl

theorem svcValue_code (k : Nat) (v u : List UInt8) : (svcValue k v u).In [.parseError] ∧ ∀ x, svcValue k v u = ok x → OkOrParse x.1 := by
  have pure : ∀ y : Res × Nat × List UInt8, OkOrParse y.1 → (ok y : Outcome _).In [.parseError] ∧ ∀ x, ok y = ok x → OkOrParse x.1 :=
    fun y hy => ⟨In.ok _, fun x h => by rw [ok.injEq] at h; rw [← h]; exact hy⟩
  rw [svcValue]
  split
  · refine pure _ ?_
    split
    · exact .inr rfl
    · exact svcMandTok_code ..
  split
  · exact pure _ (svcPortTok_code ..)
  split
  · exact svcEchTok_code ..
  split
  · refine pure _ ?_
    split
    · exact .inr rfl
    · exact svcIpTok_code ..
  split
  · refine pure _ ?_
    split
    · exact .inr rfl
    · exact svcIpTok_code ..
  split
  · exact pure _ (svcAlpnTok_code ..)
  · exact pure _ (.inl rfl)

theorem strToSvcparam_code (u : List UInt8) (k : Nat) (v : Option (List UInt8)) :
    (strToSvcparam u k v).In [.parseError] ∧ ∀ x, strToSvcparam u k v = ok x → OkOrParse x.1 := by
  rw [strToSvcparam]
  dsimp only
  split
  · exact ⟨In.abort, by simp⟩
  split
  · split
    · exact ⟨In.ok _, fun x h => by rw [ok.injEq] at h; rw [← h]; exact .inr rfl⟩
    · exact ⟨In.ok _, fun x h => by rw [ok.injEq] at h; rw [← h]; exact .inl rfl⟩
  · split
    · exact ⟨In.ub, by simp⟩
    · rename_i v'
      have hv := svcValue_code k v' (u ++ htons k ++ [0, 0])
      refine ⟨.bind hv.1 fun _ => In.ite (In.ok _) (In.ok _), fun x h => ?_⟩
      rw [bind_eq_ok] at h
      obtain ⟨⟨r, n, u2⟩, h1, h⟩ := h
      have := hv.2 _ h1
      dsimp only at h this
      split at h
      · rw [ok.injEq] at h; rw [← h]; exact this
      · rw [ok.injEq] at h; rw [← h]; exact .inl rfl

theorem sSvcparams_fin : ∀ (n : Nat) (s u : List UInt8), (sSvcparams n s u).FIn [.parseError]
  | 0, _, _ => FIn.hang
  | n + 1, s, u => by
    have key : ∀ (u : List UInt8) (k : Nat) (v : Option (List UInt8)) (rest : List UInt8),
        Outcome.FIn [.parseError] (strToSvcparam u k v >>= fun x => if x.1 ≠ .success then ok (.bad x.1 x.2) else sSvcparams n rest x.2) := by
      intro u k v rest
      have h := strToSvcparam_code u k v
      refine FIn.bind h.1 fun x hx => ?_
      split
      · rename_i hne
        rcases h.2 x hx with h' | h'
        · exact absurd h' hne
        · rw [h']; exact FIn.bad (by decide)
      · exact sSvcparams_fin n _ _
    rw [sSvcparams.eq_def]
    dsimp only
    split
    · exact FIn.go
    · exact FIn.ite (sSvcparams_fin n _ _) (FIn.ite (FIn.bad (by decide)) (FIn.ite (FIn.ite (FIn.bad (by decide)) (key ..)) (FIn.ite (FIn.bad (by decide)) (key ..))))

theorem bsearch_in {cs} (tab : List (Nat × List UInt8)) (key : List UInt8) : ∀ fuel l u, (bsearch tab key fuel l u).In cs
  | 0, _, _ => In.hang
  | fuel + 1, l, u => by
    rw [bsearch]
    refine In.ite ?_ (In.ok _)
    split
    · exact In.ub
    · split
      · exact bsearch_in tab key fuel _ _
      · exact bsearch_in tab key fuel _ _
      · exact In.ok _

theorem strToRrtype_in {cs} (s : List UInt8) : (strToRrtype s).In cs := by
  rw [strToRrtype, search]
  refine .bind (bsearch_in ..) fun _ => ?_
  split
  · exact In.ok _
  · split <;> exact In.ok _

theorem sTypes_in {cs} : ∀ (n : Nat) (s : Option (List UInt8)), (sTypes n s).In cs
  | 0, _ => In.hang
  | n + 1, none => In.ok _
  | n + 1, some s => by
    rw [sTypes.eq_def]
    dsimp only
    split
    · exact In.ok _
    · exact In.ite (sTypes_in n _) (.bind (strToRrtype_in _) fun _ => In.ite (In.ok _) (.bind (sTypes_in n _) fun _ => In.ok _))

theorem sField_fin (t : Rdf) (s u : List UInt8) : (sField t s u).FIn (Spec.fieldTextCodes t) := by
  have hname : Outcome.FIn Spec.nameTextCodes (match strToNameCase (tokOf s) with
    | ok n => ok (.go (endPtr s) (u ++ n.data))
    | err r => ok (.bad r u)
    | ub => ub
    | hang => hang
    | abort => abort) := by
    have h := strToNameGen_in (tokOf s) false
    cases hc : strToNameCase (tokOf s) with
    | ok n => exact FIn.go
    | err e => exact FIn.bad (h.mem e hc)
    | ub => exact FIn.ub
    | hang => exact FIn.hang
    | abort => exact FIn.abort
  have hint : ∀ n, (sInt n s u).FIn [.parseError] := by
    intro n
    rw [sInt]
    refine FIn.ite ?_ (FIn.bad (by decide))
    split
    · exact FIn.ub
    · exact FIn.go
    · exact FIn.ite (FIn.bad (by decide)) FIn.go
  have heui : ∀ n, (sEui n s u).FIn [.parseError] := by
    intro n
    rw [sEui]
    refine FIn.ite (FIn.bad (by decide)) ?_
    split
    · exact FIn.bad (by decide)
    · exact FIn.go
  cases t with
  | name => exact hname
  | uname => exact hname
  | bytes => exact sBytes_fin s u
  | bytesB64 => exact FIn.bind (b64_in ..) fun _ _ => FIn.go
  | bytesStr => exact FIn.ite (FIn.ite (FIn.bad (by decide)) FIn.go) (FIn.bad (by decide))
  | ipv6prefix =>
    show (sPrefix s u).FIn [.parseError]
    rw [sPrefix]
    refine FIn.ite ?_ (FIn.bad (by decide))
    split
    · exact FIn.ub
    · exact FIn.bad (by decide)
    · refine FIn.ite (FIn.bad (by decide)) ?_
      rw [sPrefixAddr]
      refine FIn.ite (FIn.bad (by decide)) ?_
      dsimp only
      split
      · exact FIn.ite (FIn.ite (FIn.bad (by decide)) FIn.go) FIn.go
      · exact FIn.ite (FIn.bad (by decide)) FIn.go
  | salt => exact FIn.ite FIn.go (FIn.ite (FIn.bad (by decide)) (sSalt_fin ..))
  | hash =>
    refine FIn.ite FIn.go ?_
    split
    · exact FIn.bad (by decide)
    · exact FIn.ite (FIn.bad (by decide)) FIn.go
  | int8 => exact hint 1
  | int16 => exact hint 2
  | int32 => exact hint 4
  | ipv4 =>
    rw [sField]
    split
    · exact FIn.bad (by decide)
    · exact FIn.go
  | ipv6 =>
    rw [sField]
    split
    · exact FIn.bad (by decide)
    · exact FIn.go
  | eui48 => exact heui 6
  | eui64 => exact heui 8
  | string =>
    have : OkOrParse (strToUbuf s u).1 := by
      rw [strToUbuf]
      dsimp only
      split
      · exact .inr rfl
      · split
        · exact .inr rfl
        · exact .inl rfl
    show Outcome.FIn [.parseError] (if (strToUbuf s u).1 ≠ .success then _ else _)
    split
    · rename_i hne
      rcases this with h | h
      · exact absurd h hne
      · rw [h]; exact FIn.bad (by decide)
    · exact FIn.go
  | repstring => exact sRepstring_fin ..
  | rrtype => exact FIn.bind (strToRrtype_in _) fun _ _ => FIn.ite (FIn.bad (by decide)) FIn.go
  | svcparams => exact sSvcparams_fin ..
  | typeBitmap =>
    refine FIn.bind (sTypes_in ..) fun _ _ => ?_
    split
    · exact FIn.bad (by decide)
    · exact FIn.go
  | ednsOptRdata => exact FIn.bad (by decide)

theorem sFields_fin : ∀ (ts : List Rdf) (p : Option (List UInt8)) (u : List UInt8), (sFields ts p u).FIn (ts.flatMap Spec.fieldTextCodes)
  | [], _, _ => FIn.go
  | t :: ts, none, u => FIn.go
  | t :: ts, some s, u => by
    rw [sFields]
    refine FIn.ite FIn.go ?_
    have h := sField_fin t (s.dropWhile isSpace) u
    have hr := fun p u => sFields_fin ts p u
    refine FIn.bind (In.mono h.errs fun e he => by simp [he]) fun r hr' => ?_
    cases r with
    | go p u' => exact ⟨In.mono (hr p u').errs fun e he => by simp only [List.flatMap_cons, List.mem_append]; exact .inr he,
        fun r u hb => by simp only [List.flatMap_cons, List.mem_append]; exact .inr ((hr p u').bads r u hb)⟩
    | bad e u' => exact FIn.bad (by simp only [List.flatMap_cons, List.mem_append]; exact .inl (h.bads e u' hr'))

/-- **C101**: what `wdns_str_to_name` and `wdns_str_to_name_case` reject a text with. -/
theorem C101_name_text (s : List UInt8) (e : Res) : (strToName s = err e → e ∈ Spec.nameTextCodes) ∧ (strToNameCase s = err e → e ∈ Spec.nameTextCodes) :=
  ⟨(strToNameGen_in s true).mem e, (strToNameGen_in s false).mem e⟩

/-- A case of `C101_name_text`: an empty label. -/
example : Res.parseError ∈ Spec.nameTextCodes := (C101_name_text (ascii "a..b") .parseError).1 (by decide +kernel)

/-- **C101**: what `wdns_str_to_rdata` rejects a text with: a parse error for a type without a known layout, and otherwise the code of one of the fields of the layout.  Where the layout does
not apply in the class every text is accepted. -/
theorem C101_rdata_text (s : List UInt8) (t c : Nat) (e : Res) (h : strToRdata s t c = err e) :
    match recordDescr t with
    | none => e = .parseError
    | some d => d.applies c = true ∧ ∃ f ∈ d.types, e ∈ Spec.fieldTextCodes f := by
  have fin : ∀ {cs} {o : Outcome FRes}, o.FIn cs → ∀ g : FRes → Outcome (Res × List UInt8), (∀ r, g r = match r with | .go _ u => ok (.success, u) | .bad e u' => ok (e, u'.take 0)) →
      ((o >>= g) >>= fun r => if r.1 = .success then ok r.2 else err r.1) = err e → e ∈ cs := by
    intro cs o ho g hg hh
    cases o with
    | ok r =>
      rw [ok_bind, hg] at hh
      cases r with
      | go p u => simp at hh
      | bad e' u =>
        simp only [ok_bind] at hh
        split at hh
        · cases hh
        · rw [err.injEq] at hh
          rw [← hh]
          exact ho.bads e' u rfl
    | err e' =>
      simp only [err_bind, err.injEq] at hh
      exact ho.errs.mem e (by rw [hh])
    | ub => simp at hh
    | hang => simp at hh
    | abort => simp at hh
  rw [strToRdata, strToRdataUbuf] at h
  cases hd : recordDescr t with
  | none =>
    rw [hd] at h
    have := fin (sUnknown_fin s []) _ (fun _ => rfl) h
    simpa using this
  | some d =>
    rw [hd] at h
    dsimp only at h ⊢
    cases ha : d.applies c with
    | false => rw [ha] at h; simp at h
    | true =>
      rw [ha] at h
      have := fin (sFields_fin d.types (some s) []) _ (fun _ => rfl) h
      rw [List.mem_flatMap] at this
      exact ⟨rfl, this⟩

/-- A case of `C101_rdata_text`: a word that is not a number, for MX. -/
example : ∃ d, recordDescr 15 = some d ∧ d.applies 1 = true ∧ ∃ f ∈ d.types, Res.parseError ∈ Spec.fieldTextCodes f := by
  have h := C101_rdata_text (ascii "x y") 15 1 .parseError (by decide +kernel)
  have hs : (recordDescr 15).isSome = true := by decide +kernel
  revert h hs
  cases recordDescr 15 with
  | none => intro _ hs; cases hs
  | some d => exact fun h _ => ⟨d, rfl, h⟩

/-- **C101**: a text is rejected with `wdns_res_failure` only for OPT, and for OPT every text but white space is rejected like that. -/
theorem C101_failure (s : List UInt8) (t c : Nat) :
    (strToRdata s t c = err .failure → t = 41) ∧ (s.dropWhile isSpace ≠ [] → strToRdata s 41 c = err .failure) := by
  constructor
  · intro h
    have := C101_rdata_text s t c _ h
    cases hd : recordDescr t with
    | none => rw [hd] at this; cases this
    | some d =>
      rw [hd] at this
      obtain ⟨_, f, hf, hm⟩ := this
      have hall : ∀ t < 258, ∀ d ∈ recordDescr t, ∀ f ∈ d.types, Res.failure ∈ Spec.fieldTextCodes f → t = 41 := by decide +kernel
      exact hall t (recordDescr_lt hd) d hd f hf hm
  · intro h
    have hd : recordDescr 41 = some ⟨0, [.ednsOptRdata]⟩ := rfl
    have ha : Descr.applies ⟨0, [.ednsOptRdata]⟩ c = true := by simp [Descr.applies]
    rw [strToRdata, strToRdataUbuf, hd]
    simp only [ha, if_true, sFields, h, if_false, sField, ok_bind, List.length_nil, List.take_zero]
    simp

/-- Each of the three codes is returned for some text. -/
example : strToRdata (ascii "300") 15 1 = ok [1, 44] ∧ strToRdata (ascii "x y") 15 1 = err .parseError ∧ strToRdata (ascii "1") 41 1 = err .failure ∧
    strToRdata (List.replicate 255 97) 2 1 = err .nameOverflow := by decide +kernel

end Wdns
