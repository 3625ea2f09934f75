import Verif.Model.TextHeap
import Verif.Props.Tables
/-! # C76 — the functions that read and write text leak nothing and free nothing twice -/

namespace Wdns
open Outcome

/-- The function with the heap (`ho`) ends as the one without (`o`), and afterwards the live blocks are `L`. -/
def Sims {α : Type} (L : List Nat) (o : Outcome α) (ho : Outcome (α × Heap)) : Prop :=
  match o with
  | ok a => ∃ h, ho = ok (a, h) ∧ h.live = L
  | err e => ho = err e
  | ub => ho = ub
  | hang => ho = hang
  | abort => ho = abort

theorem Sims.ret {α : Type} {L : List Nat} {a : α} {h : Heap} (hl : h.live = L) : Sims L (ok a) (ok (a, h)) := ⟨h, rfl, hl⟩

theorem Sims.bind {α β : Type} {L M : List Nat} {o : Outcome α} {ho : Outcome (α × Heap)} {f : α → Outcome β} {g : α × Heap → Outcome (β × Heap)}
    (h : Sims M o ho) (k : ∀ a h, h.live = M → Sims L (f a) (g (a, h))) : Sims L (o >>= f) (ho >>= g) := by
  cases o with
  | ok a => obtain ⟨h', rfl, hl⟩ := h; exact k a h' hl
  | err e => rw [show ho = err e from h]; rfl
  | ub => rw [show ho = ub from h]; rfl
  | hang => rw [show ho = hang from h]; rfl
  | abort => rw [show ho = abort from h]; rfl

theorem Sims.pure_bind {α β : Type} {L : List Nat} {o : Outcome α} {f : α → Outcome β} {g : α → Outcome (β × Heap)}
    (k : ∀ a, Sims L (f a) (g a)) : Sims L (o >>= f) (o >>= g) := by
  cases o with
  | ok a => exact k a
  | _ => rfl

theorem Sims.lift {α : Type} {L : List Nat} {o : Outcome α} {h : Heap} (hl : h.live = L) : Sims L o (o >>= fun r => ok (r, h)) := by
  cases o with
  | ok a => exact Sims.ret hl
  | _ => rfl

theorem free_head {b : Nat} {L : List Nat} {h : Heap} (hl : h.live = b :: L) : h.free (some b) = ok ⟨h.next, L⟩ := by
  unfold Heap.free
  rw [hl]
  simp

theorem use_head {b : Nat} {L : List Nat} {h : Heap} (hl : h.live = b :: L) : h.use (some b) = ok () := by
  unfold Heap.use
  rw [hl]
  simp

theorem hBase64_sim (s : List UInt8) (h : Heap) : Sims h.live (base64StrToBytes s) (hBase64 s h) := by
  unfold hBase64
  cases base64StrToBytes s with
  | ok r => simp [Heap.malloc, Heap.use, Heap.free, Sims]
  | _ => rfl

theorem hSvcEchTok_sim (c u : List UInt8) (h : Heap) : Sims h.live (svcEchTok c u) (hSvcEchTok c u h) := by
  unfold svcEchTok hSvcEchTok
  cases (strtok (· = 32) c []).head? with
  | none => exact Sims.ret rfl
  | some tok =>
    dsimp only
    split
    · exact Sims.ret rfl
    · refine Sims.bind (hBase64_sim tok h) fun b h' hl => Sims.ret hl

theorem hStrToSvcparam_sim (u : List UInt8) (k : Nat) (v : Option (List UInt8)) (h : Heap) :
    Sims h.live (strToSvcparam u k v) (hStrToSvcparam u k v h) := by
  unfold hStrToSvcparam
  by_cases hk : k = 5
  · subst hk
    rw [if_pos rfl]
    unfold strToSvcparam
    rw [if_neg (by decide)]
    dsimp only
    rw [if_neg (by decide)]
    cases v with
    | none => rfl
    | some v =>
      dsimp only
      have e : svcValue 5 v (u ++ htons 5 ++ [0, 0]) = svcEchTok (cstrOf v) (u ++ htons 5 ++ [0, 0]) := rfl
      rw [e]
      refine Sims.bind (hSvcEchTok_sim _ _ h) fun r h' hl => ?_
      obtain ⟨a, b, c⟩ := r
      dsimp only
      split
      · exact Sims.ret hl
      · exact Sims.ret hl
  · rw [if_neg hk]
    exact Sims.lift rfl

theorem hSvcparams_sim : ∀ (n : Nat) (s u : List UInt8) (h : Heap), Sims h.live (sSvcparams n s u) (hSvcparams n s u h)
  | 0, _, _, _ => rfl
  | n + 1, [], u, h => Sims.ret rfl
  | n + 1, c :: cs, u, h => by
    rw [sSvcparams.eq_def, hSvcparams.eq_def]
    dsimp only
    by_cases h1 : c = 32
    · rw [if_pos h1, if_pos h1]; exact hSvcparams_sim n cs u h
    · rw [if_neg h1, if_neg h1]
      have e1 : (h.malloc.2.use (some h.malloc.1) : Outcome Unit) = ok () := use_head rfl
      have e2 : h.malloc.2.free (some h.malloc.1) = ok ⟨h.next + 1, h.live⟩ := free_head rfl
      rw [e1, ok_bind, e2, ok_bind]
      generalize (c :: cs).takeWhile (fun c => decide (c ≠ 61 ∧ c ≠ 32)) = key
      split
      · exact Sims.ret rfl
      · split
        · split
          · exact Sims.ret rfl
          · refine Sims.bind (hStrToSvcparam_sim _ _ _ ⟨h.next + 1, h.live⟩) fun r h' hl => ?_
            obtain ⟨r, u'⟩ := r
            dsimp only
            split
            · exact Sims.ret hl
            · rw [← hl]; exact hSvcparams_sim n _ _ h'
        · split
          · exact Sims.ret rfl
          · refine Sims.bind (hStrToSvcparam_sim _ _ _ (Heap.malloc ⟨h.next + 1, h.live⟩).2) fun r h' hl => ?_
            obtain ⟨r, u'⟩ := r
            dsimp only
            have hl' : h'.live = (Heap.malloc ⟨h.next + 1, h.live⟩).1 :: h.live := hl
            rw [use_head hl', ok_bind, free_head hl', ok_bind]
            split
            · exact Sims.ret rfl
            · exact hSvcparams_sim n _ _ ⟨h'.next, h.live⟩

theorem hU16Add_sim (v n cap : Nat) (h : Heap) (L : List Nat) (hl : h.live = v :: L) :
    ∃ v' n' cap' h', hU16Add v n cap h = ok ((v', n', cap'), h') ∧ h'.live = v' :: L := by
  unfold hU16Add
  by_cases hc : n + 1 > cap
  · rw [if_pos hc]
    refine ⟨h.next, n + 1, 2 * cap, ⟨h.next + 1, h.next :: L⟩, ?_, rfl⟩
    unfold Heap.realloc
    rw [free_head hl]
    rfl
  · rw [if_neg hc, use_head hl]
    exact ⟨v, n + 1, cap, h, rfl, hl⟩

theorem destroy_sim {b v : Nat} {L : List Nat} {h : Heap} (hl : h.live = v :: b :: L) : hU16Destroy b v h = ok ⟨h.next, L⟩ := by
  unfold hU16Destroy
  rw [free_head hl, ok_bind, free_head rfl]

/-- Reading the list of types: the storage `v` and the struct `b` stay, or both are gone after an error. -/
def TypesSim (L : List Nat) (b : Nat) (o : Outcome (Option (List Nat))) (ho : Outcome (Option (List Nat × Nat) × Heap)) : Prop :=
  match o with
  | ok none => ∃ h, ho = ok (none, h) ∧ h.live = L
  | ok (some ts) => ∃ h v, ho = ok (some (ts, v), h) ∧ h.live = v :: b :: L
  | err e => ho = err e
  | ub => ho = ub
  | hang => ho = hang
  | abort => ho = abort

theorem hTypes_sim (L : List Nat) (b : Nat) : ∀ (fuel : Nat) (s : Option (List UInt8)) (v n cap : Nat) (h : Heap), h.live = v :: b :: L →
    TypesSim L b (sTypes fuel s) (hTypes b fuel s v n cap h)
  | 0, _, _, _, _, _, _ => by unfold sTypes hTypes; rfl
  | fuel + 1, none, v, n, cap, h, hl => ⟨h, v, rfl, hl⟩
  | fuel + 1, some [], v, n, cap, h, hl => ⟨h, v, rfl, hl⟩
  | fuel + 1, some (c :: cs), v, n, cap, h, hl => by
    rw [sTypes.eq_def, hTypes.eq_def]
    dsimp only
    by_cases h1 : isSpace c
    · rw [if_pos h1, if_pos h1]; exact hTypes_sim L b fuel _ v n cap h hl
    · rw [if_neg h1, if_neg h1]
      cases strToRrtype (tokOf (c :: cs)) with
      | ok t =>
        simp only [ok_bind]
        have e1 : h.malloc.2.live = h.malloc.1 :: v :: b :: L := by rw [← hl]; rfl
        rw [use_head e1, ok_bind]
        by_cases h2 : t = 0 ∧ casecmp (tokOf (c :: cs)) (ascii "TYPE0") ≠ .eq
        · rw [if_pos h2, if_pos h2, free_head e1, ok_bind, destroy_sim rfl]
          exact ⟨_, rfl, rfl⟩
        · rw [if_neg h2, if_neg h2, free_head e1, ok_bind]
          obtain ⟨v', n', cap', h', e, hl'⟩ := hU16Add_sim v n cap ⟨h.malloc.2.next, v :: b :: L⟩ _ rfl
          rw [e, ok_bind]
          have ih := hTypes_sim L b fuel (endPtr (c :: cs)) v' n' cap' h' hl'
          dsimp only
          cases hs : sTypes fuel (endPtr (c :: cs)) with
          | ok r =>
            rw [hs] at ih
            cases r with
            | none => obtain ⟨h'', e, hl⟩ := ih; rw [e]; exact ⟨h'', rfl, hl⟩
            | some ts => obtain ⟨h'', v'', e, hl⟩ := ih; rw [e]; exact ⟨h'', v'', rfl, hl⟩
          | _ =>
            rw [hs] at ih
            simp only [TypesSim] at ih
            rw [ih]; rfl
      | _ => rfl

theorem hBitmap_sim (s u : List UInt8) (h : Heap) : Sims h.live (sBitmap s u) (hBitmap s u h) := by
  unfold sBitmap hBitmap
  have ih := hTypes_sim h.live h.malloc.1 (s.length + 2) (some s) h.malloc.2.malloc.1 0 16 h.malloc.2.malloc.2 rfl
  dsimp only
  cases hs : sTypes (s.length + 2) (some s) with
  | ok r =>
    rw [hs] at ih
    cases r with
    | none => obtain ⟨h'', e, hl⟩ := ih; rw [e]; exact Sims.ret hl
    | some ts =>
      obtain ⟨h'', v'', e, hl⟩ := ih
      rw [e]
      simp only [ok_bind]
      rw [use_head hl, ok_bind, destroy_sim hl]
      exact Sims.ret rfl
  | _ =>
    rw [hs] at ih
    simp only [TypesSim] at ih
    rw [ih]; rfl

theorem hPrefixAddr_sim (pl : Nat) (s u : List UInt8) (h : Heap) : Sims h.live (sPrefixAddr pl s u) (hPrefixAddr pl s u h) := by
  unfold sPrefixAddr hPrefixAddr
  by_cases h1 : s = []
  · rw [if_pos h1, if_pos h1]; exact Sims.ret rfl
  · rw [if_neg h1, if_neg h1]
    have e1 : (h.malloc.2.use (some h.malloc.1) : Outcome Unit) = ok () := use_head rfl
    have e2 : h.malloc.2.free (some h.malloc.1) = ok ⟨h.next + 1, h.live⟩ := free_head rfl
    dsimp only
    rw [e1, ok_bind, e2, ok_bind]
    cases inetPton6 (tokOf s) with
    | none => dsimp only; split <;> exact Sims.ret rfl
    | some a =>
      dsimp only
      split
      · split <;> exact Sims.ret rfl
      · exact Sims.ret rfl

theorem hPrefix_sim (s u : List UInt8) (h : Heap) : Sims h.live (sPrefix s u) (hPrefix s u h) := by
  unfold sPrefix hPrefix
  split
  · cases scanfU 8 s with
    | eof => rfl
    | «nomatch» => exact Sims.ret rfl
    | val pl =>
      dsimp only
      split
      · exact Sims.ret rfl
      · exact hPrefixAddr_sim _ _ _ h
  · exact Sims.ret rfl

/-- Reading a name: a new block with the name, or none after an error. -/
theorem hStrToNameGen_sim (s : List UInt8) (d : Bool) (h : Heap) :
    match strToNameGen s d with
    | ok n => hStrToNameGen s d h = ok (.ok (n, h.next), ⟨h.next + 1, h.next :: h.live⟩)
    | err e => hStrToNameGen s d h = ok (.error e, ⟨h.next + 1, h.live⟩)
    | ub => hStrToNameGen s d h = ub
    | hang => hStrToNameGen s d h = hang
    | abort => hStrToNameGen s d h = abort := by
  unfold strToNameGen hStrToNameGen
  by_cases h1 : s.length = 0 ∨ (s.length = 1 ∧ s.head? = some 46)
  · rw [if_pos h1, if_pos h1]; rfl
  · rw [if_neg h1, if_neg h1]
    dsimp only
    have e2 : h.malloc.2.free (some h.malloc.1) = ok ⟨h.next + 1, h.live⟩ := free_head rfl
    cases stnLoop maxlenName s d (s.length + 2) 0 s.length 0 1 [0] 0 with
    | err e => dsimp only; rw [e2]; rfl
    | _ => rfl

theorem hName_sim (t : Rdf) (ht : t = .name ∨ t = .uname) (s u : List UInt8) (h : Heap) : Sims h.live (sField t s u) (hField t s u h) := by
  have key := hStrToNameGen_sim (tokOf s) false h.malloc.2.malloc.2
  have e1 : h.malloc.2.malloc.2.use (some h.malloc.1) = ok () := by simp [Heap.malloc, Heap.use]
  have hf : hField t s u h = hField .name s u h := by rcases ht with rfl | rfl <;> rfl
  have hs : sField t s u = sField .name s u := by rcases ht with rfl | rfl <;> rfl
  rw [hf, hs]
  unfold sField hField
  dsimp only
  rw [e1, ok_bind]
  unfold strToNameCase
  cases hn : strToNameGen (tokOf s) false with
  | ok n =>
    rw [hn] at key
    dsimp only at key ⊢
    rw [key]
    have g : ∀ (n : Nat) (L : List Nat), ((n + 1 + 1) :: (n + 1) :: n :: L).erase n = (n + 1 + 1) :: (n + 1) :: L := by
      intro n L
      rw [List.erase_cons_tail (by simp; omega), List.erase_cons_tail (by simp), List.erase_cons_head]
    simp only [ok_bind, Heap.malloc, Heap.use, Heap.free, g]
    simp [Sims, g]
  | err e =>
    rw [hn] at key
    dsimp only at key ⊢
    rw [key]
    simp only [ok_bind, Heap.malloc, Heap.free]
    simp [Sims]
  | _ =>
    rw [hn] at key
    dsimp only at key ⊢
    rw [key]; rfl

theorem hField_sim (t : Rdf) (s u : List UInt8) (h : Heap) : Sims h.live (sField t s u) (hField t s u h) := by
  have e1 : (h.malloc.2.use (some h.malloc.1) : Outcome Unit) = ok () := use_head rfl
  have e2 : h.malloc.2.free (some h.malloc.1) = ok ⟨h.next + 1, h.live⟩ := free_head rfl
  cases t with
  | name => exact hName_sim _ (.inl rfl) s u h
  | uname => exact hName_sim _ (.inr rfl) s u h
  | bytesB64 => exact Sims.bind (hBase64_sim s h) fun b h' hl => Sims.ret hl
  | ipv6prefix => exact hPrefix_sim s u h
  | svcparams => exact hSvcparams_sim _ s u h
  | typeBitmap => exact hBitmap_sim s u h
  | hash =>
    unfold sField hField
    dsimp only
    by_cases h1 : (tokOf s).length = 1
    · rw [if_pos h1, if_pos h1]; exact Sims.ret rfl
    · rw [if_neg h1, if_neg h1]
      cases base32Decode (tokOf s).length (tokOf s) with
      | none => dsimp only; rw [e2]; exact Sims.ret rfl
      | some w =>
        dsimp only
        split
        · rw [e2]; exact Sims.ret rfl
        · rw [e1, ok_bind, e2]; exact Sims.ret rfl
  | ipv4 | ipv6 =>
    rw [hField.eq_def]
    dsimp only
    rw [e1, ok_bind]
    first
      | cases sField .ipv4 s u with
        | ok r => rw [ok_bind, e2]; exact Sims.ret rfl
        | _ => rfl
      | cases sField .ipv6 s u with
        | ok r => rw [ok_bind, e2]; exact Sims.ret rfl
        | _ => rfl
  | rrtype =>
    unfold sField hField
    dsimp only
    rw [e1, ok_bind]
    refine Sims.pure_bind fun t => ?_
    rw [e2, ok_bind]
    split <;> exact Sims.ret rfl
  | bytes | bytesStr | salt | int8 | int16 | int32 | eui48 | eui64 | string | repstring | ednsOptRdata => exact Sims.lift rfl

theorem hFields_sim : ∀ (ts : List Rdf) (s : Option (List UInt8)) (u : List UInt8) (h : Heap), Sims h.live (sFields ts s u) (hFields ts s u h)
  | [], _, _, _ => Sims.ret rfl
  | _ :: _, none, _, _ => Sims.ret rfl
  | t :: ts, some s, u, h => by
    rw [sFields.eq_def, hFields.eq_def]
    dsimp only
    split
    · exact Sims.ret rfl
    · refine Sims.bind (hField_sim t _ u h) fun r h' hl => ?_
      cases r with
      | go s u => dsimp only; rw [← hl]; exact hFields_sim ts s u h'
      | bad r u => exact Sims.ret hl

theorem hStrToRdataUbuf_sim (u s : List UInt8) (ty cls : Nat) (h : Heap) :
    Sims h.live (strToRdataUbuf u s ty cls) (hStrToRdataUbuf u s ty cls h) := by
  unfold strToRdataUbuf hStrToRdataUbuf
  refine Sims.bind (M := h.live) ?_ fun r h' hl => ?_
  · cases recordDescr ty with
    | none => exact Sims.lift rfl
    | some d =>
      dsimp only
      split
      · exact hFields_sim _ _ _ h
      · exact Sims.ret rfl
  · cases r <;> exact Sims.ret hl

/-! ### No path of the scanner ends with the model's `err` (errors are values of `FRes`) -/

def NoErrs {α : Type} (o : Outcome α) : Prop := ∀ e, o ≠ err e

theorem NoErrs.ok {α : Type} (a : α) : NoErrs (Outcome.ok a) := fun _ h => by cases h
theorem NoErrs.ub {α : Type} : NoErrs (Outcome.ub : Outcome α) := fun _ h => by cases h
theorem NoErrs.hang {α : Type} : NoErrs (Outcome.hang : Outcome α) := fun _ h => by cases h
theorem NoErrs.abort {α : Type} : NoErrs (Outcome.abort : Outcome α) := fun _ h => by cases h

theorem NoErrs.bind {α β : Type} {o : Outcome α} {f : α → Outcome β} (h : NoErrs o) (k : ∀ a, NoErrs (f a)) : NoErrs (o >>= f) := by
  cases o with
  | ok a => exact k a
  | err e => exact absurd rfl (h e)
  | ub => exact NoErrs.ub
  | hang => exact NoErrs.hang
  | abort => exact NoErrs.abort

theorem noErr_rrtype (s : List UInt8) : NoErrs (strToRrtype s) := by
  obtain ⟨t, _, h, _⟩ := C47_str_to_rrtype_total s
  rw [h]; exact NoErrs.ok _

theorem noErr_b64 (cap : Nat) : ∀ (s : List UInt8) (st : B64DStep) (cur : Nat) (out : List UInt8), NoErrs (b64DecodeLoop cap st cur s out)
  | [], st, cur, out => by
    rw [b64DecodeLoop]
    split
    · exact NoErrs.ok _
    · exact NoErrs.ub
  | c :: cs, st, cur, out => by
    rw [b64DecodeLoop.eq_def]
    refine NoErrs.bind ?_ fun v => ?_
    · unfold b64DecodeValue
      split
      · exact NoErrs.ok _
      · split
        · exact NoErrs.ub
        · exact NoErrs.ok _
    · cases v with
      | none => exact noErr_b64 cap cs _ _ _
      | some f =>
        cases st <;> (dsimp only; split <;> first | exact noErr_b64 cap cs _ _ _ | exact NoErrs.ub)

theorem noErr_svcparam (u : List UInt8) (k : Nat) (v : Option (List UInt8)) : NoErrs (strToSvcparam u k v) := by
  unfold strToSvcparam
  split
  · exact NoErrs.abort
  · dsimp only
    split
    · cases v <;> exact NoErrs.ok _
    · cases v with
      | none => exact NoErrs.ub
      | some v =>
        refine NoErrs.bind ?_ fun r => by split <;> exact NoErrs.ok _
        unfold svcValue
        dsimp only
        repeat' split
        all_goals try exact NoErrs.ok _
        unfold svcEchTok
        split
        · exact NoErrs.ok _
        · split
          · exact NoErrs.ok _
          · exact NoErrs.bind (noErr_b64 _ _ _ _ _) fun _ => NoErrs.ok _

theorem noErr_svcparams : ∀ (n : Nat) (s u : List UInt8), NoErrs (sSvcparams n s u)
  | 0, _, _ => by rw [sSvcparams]; exact NoErrs.hang
  | n + 1, [], u => NoErrs.ok _
  | n + 1, c :: cs, u => by
    rw [sSvcparams.eq_def]
    dsimp only
    split
    · exact noErr_svcparams n _ _
    · split
      · exact NoErrs.ok _
      · split
        · split
          · exact NoErrs.ok _
          · refine NoErrs.bind (noErr_svcparam _ _ _) fun r => ?_
            split
            · exact NoErrs.ok _
            · exact noErr_svcparams n _ _
        · split
          · exact NoErrs.ok _
          · refine NoErrs.bind (noErr_svcparam _ _ _) fun r => ?_
            split
            · exact NoErrs.ok _
            · exact noErr_svcparams n _ _

theorem noErr_types : ∀ (n : Nat) (s : Option (List UInt8)), NoErrs (sTypes n s)
  | 0, s => by rw [sTypes]; exact NoErrs.hang
  | n + 1, none => NoErrs.ok _
  | n + 1, some [] => NoErrs.ok _
  | n + 1, some (c :: cs) => by
    rw [sTypes.eq_def]
    dsimp only
    split
    · exact noErr_types n _
    · refine NoErrs.bind (noErr_rrtype _) fun t => ?_
      split
      · exact NoErrs.ok _
      · exact NoErrs.bind (noErr_types n _) fun r => NoErrs.ok _

theorem noErr_bytes : ∀ (s u : List UInt8), NoErrs (sBytes s u)
  | [], _ => NoErrs.ok _
  | [_], _ => NoErrs.ok _
  | c :: d :: s, u => by
    rw [sBytes.eq_def]
    dsimp only
    split
    · exact NoErrs.ub
    · exact NoErrs.ok _
    · exact noErr_bytes s _

theorem noErr_generic : ∀ (s : List UInt8) (n : Nat) (u : List UInt8), NoErrs (sGeneric s n u)
  | [], _, _ => NoErrs.ok _
  | [c], n, u => by
    rw [sGeneric.eq_def]
    dsimp only
    split
    · exact NoErrs.ok _
    · exact NoErrs.ok _
  | c :: d :: s, n, u => by
    rw [sGeneric.eq_def]
    dsimp only
    split
    · exact noErr_generic _ n u
    · split
      · exact NoErrs.ub
      · exact NoErrs.ok _
      · exact noErr_generic s _ _

theorem noErr_salt : ∀ (n : Nat) (s u : List UInt8), NoErrs (sSalt n s u)
  | 0, _, _ => NoErrs.ok _
  | n + 1, s, u => by
    rw [sSalt.eq_def]
    dsimp only
    split
    · exact NoErrs.ub
    · exact NoErrs.ok _
    · exact noErr_salt n _ _

theorem noErr_repstring : ∀ (n : Nat) (s u : List UInt8), NoErrs (sRepstring n s u)
  | 0, _, _ => by rw [sRepstring]; exact NoErrs.hang
  | n + 1, [], _ => NoErrs.ok _
  | n + 1, c :: cs, u => by
    rw [sRepstring.eq_def]
    dsimp only
    split
    · exact noErr_repstring n _ _
    · split
      · exact NoErrs.ok _
      · split
        · exact NoErrs.ok _
        · exact noErr_repstring n _ _

theorem noErr_field (t : Rdf) (s u : List UInt8) : NoErrs (sField t s u) := by
  unfold sField sPrefix sPrefixAddr sInt sEui
  cases t <;> dsimp only
  case bytesB64 => exact NoErrs.bind (noErr_b64 _ _ _ _ _) fun _ => NoErrs.ok _
  case bytes => exact noErr_bytes _ _
  case svcparams => exact noErr_svcparams _ _ _
  case repstring => exact noErr_repstring _ _ _
  case typeBitmap =>
    refine NoErrs.bind (noErr_types _ _) fun r => ?_
    cases r <;> exact NoErrs.ok _
  case rrtype =>
    refine NoErrs.bind (noErr_rrtype _) fun t => ?_
    split <;> exact NoErrs.ok _
  case salt =>
    split
    · exact NoErrs.ok _
    · split
      · exact NoErrs.ok _
      · exact noErr_salt _ _ _
  all_goals (repeat' split) <;> first | exact NoErrs.ok _ | exact NoErrs.ub | exact NoErrs.hang | exact NoErrs.abort

theorem noErr_fields : ∀ (ts : List Rdf) (s : Option (List UInt8)) (u : List UInt8), NoErrs (sFields ts s u)
  | [], _, _ => NoErrs.ok _
  | _ :: _, none, _ => NoErrs.ok _
  | t :: ts, some s, u => by
    rw [sFields.eq_def]
    dsimp only
    split
    · exact NoErrs.ok _
    · refine NoErrs.bind (noErr_field t _ _) fun r => ?_
      cases r with
      | go s u => exact noErr_fields ts s u
      | bad r u => exact NoErrs.ok _

theorem noErr_rdata (u s : List UInt8) (ty cls : Nat) : NoErrs (strToRdataUbuf u s ty cls) := by
  unfold strToRdataUbuf
  refine NoErrs.bind ?_ fun r => by cases r <;> exact NoErrs.ok _
  cases recordDescr ty with
  | none =>
    unfold sUnknown
    dsimp only
    split
    · exact NoErrs.ok _
    · split
      · split
        · split
          · exact NoErrs.ub
          · exact NoErrs.ok _
          · refine NoErrs.bind (noErr_generic _ _ _) fun r => ?_
            split <;> exact NoErrs.ok _
        · exact NoErrs.ok _
      · exact NoErrs.ok _
  | some d =>
    dsimp only
    split
    · exact noErr_fields _ _ _
    · exact NoErrs.ok _

theorem ubuf_destroy {u : HUbuf} {L : List Nat} {h : Heap} (hl : h.live = u.vec :: u.obj :: L) : hUbufDestroy u h = ok ⟨h.next, L⟩ := by
  unfold hUbufDestroy
  have : h.use (some u.obj) = ok () := by unfold Heap.use; rw [hl]; simp
  rw [this, ok_bind, free_head hl, ok_bind, free_head rfl]

theorem ubuf_detach_destroy {u : HUbuf} {L : List Nat} {h : Heap} (hl : h.live = u.vec :: u.obj :: L) (hne : u.vec ≠ u.obj) :
    (do let (b, u, h) ← hUbufDetach u h
        let h ← hUbufDestroy u h
        ok (b, h)) = ok (u.vec, ⟨h.next + 1, u.vec :: L⟩) := by
  have h1 : h.use (some u.obj) = ok () := by unfold Heap.use; rw [hl]; simp
  unfold hUbufDetach hUbufDestroy
  rw [h1, ok_bind]
  simp only [ok_bind, Heap.malloc, Heap.use, Heap.free, hl]
  simp [hne]

/-- **C76**: `wdns_str_to_rdata` with its allocations: it ends as described by C69 and C73 whatever the heap is; after success there is
exactly one more live block than before, the one handed to the caller; after an error the live blocks are the same as before.
No block is used or freed that is not live. -/
theorem C76_str_to_rdata (s : List UInt8) (ty cls : Nat) (h : Heap) :
    match strToRdata s ty cls with
    | ok w => ∃ b n, hStrToRdata s ty cls h = ok (.ok (w, b), ⟨n, b :: h.live⟩) ∧ h.next ≤ b
    | err e => ∃ n, hStrToRdata s ty cls h = ok (.error e, ⟨n, h.live⟩)
    | ub => hStrToRdata s ty cls h = ub
    | hang => hStrToRdata s ty cls h = hang
    | abort => hStrToRdata s ty cls h = abort := by
  have key := hStrToRdataUbuf_sim [] s ty cls (hUbufNew h).2
  unfold strToRdata hStrToRdata
  dsimp only
  cases hs : strToRdataUbuf [] s ty cls with
  | ok r =>
    rw [hs] at key
    obtain ⟨h', e, hl⟩ := key
    rw [e]
    obtain ⟨r, w⟩ := r
    simp only [ok_bind]
    have hl' : h'.live = (hUbufNew h).1.vec :: (hUbufNew h).1.obj :: h.live := hl
    by_cases hr : r = .success
    · rw [if_pos hr, if_pos hr]
      dsimp only
      refine ⟨h.next + 1, h'.next + 1, ?_, by omega⟩
      have := ubuf_detach_destroy hl' (by simp [hUbufNew, Heap.malloc])
      unfold hUbufDetach at this ⊢
      have h1 : h'.use (some (hUbufNew h).1.obj) = ok () := by unfold Heap.use; rw [hl']; simp
      rw [h1] at this ⊢
      simp only [ok_bind] at this ⊢
      cases hd : hUbufDestroy { (hUbufNew h).1 with vec := h'.malloc.1 } h'.malloc.2 with
      | ok x => rw [hd] at this; simp only [ok_bind] at this ⊢; cases this; rfl
      | _ => rw [hd] at this; cases this
    · rw [if_neg hr, if_neg hr]
      dsimp only
      exact ⟨h'.next, by rw [ubuf_destroy hl']; rfl⟩
  | err e => exact absurd hs (noErr_rdata [] s ty cls e)
  | ub => rw [hs] at key; rw [show hStrToRdataUbuf [] s ty cls (hUbufNew h).2 = ub from key]; rfl
  | hang => rw [hs] at key; rw [show hStrToRdataUbuf [] s ty cls (hUbufNew h).2 = hang from key]; rfl
  | abort => rw [hs] at key; rw [show hStrToRdataUbuf [] s ty cls (hUbufNew h).2 = abort from key]; rfl

/-- **C76**: `wdns_str_to_name` and `wdns_str_to_name_case` with their allocation: after success there is exactly one more live block,
the name's; after an error the live blocks are the same as before. -/
theorem C76_str_to_name (s : List UInt8) (downcase : Bool) (h : Heap) :
    match (if downcase then strToName s else strToNameCase s) with
    | ok n => ∃ b, hStrToNameGen s downcase h = ok (.ok (n, b), ⟨b + 1, b :: h.live⟩) ∧ h.next ≤ b
    | err e => ∃ n, hStrToNameGen s downcase h = ok (.error e, ⟨n, h.live⟩)
    | ub => hStrToNameGen s downcase h = ub
    | hang => hStrToNameGen s downcase h = hang
    | abort => hStrToNameGen s downcase h = abort := by
  have e : (if downcase then strToName s else strToNameCase s) = strToNameGen s downcase := by cases downcase <;> rfl
  rw [e]
  have key := hStrToNameGen_sim s downcase h
  cases hn : strToNameGen s downcase with
  | ok n => rw [hn] at key; exact ⟨h.next, key, Nat.le_refl _⟩
  | err e => rw [hn] at key; exact ⟨_, key⟩
  | _ => rw [hn] at key; exact key

/-- Detaching the text from the buffer and destroying the buffer. -/
theorem detach_frame {α : Type} (t : α) {u : HUbuf} {L : List Nat} {h : Heap} (hl : h.live = u.vec :: u.obj :: L) (hne : u.vec ≠ u.obj) :
    (do let (b, u, h) ← hUbufDetach u h
        let h ← hUbufDestroy u h
        ok ((t, b), h)) = (ok ((t, u.vec), ⟨h.next + 1, u.vec :: L⟩) : Outcome ((α × Nat) × Heap)) := by
  have h1 : h.use (some u.obj) = ok () := by unfold Heap.use; rw [hl]; simp
  unfold hUbufDetach hUbufDestroy
  rw [h1, ok_bind]
  simp only [ok_bind, Heap.malloc, Heap.use, Heap.free, hl]
  simp [hne]

/-- A function that renders: it ends as without the heap, and the text is the only new block. -/
def Renders (o : Outcome (List UInt8)) (f : Heap → Outcome ((List UInt8 × Nat) × Heap)) : Prop := ∀ h : Heap,
  match o with
  | ok t => ∃ b n, f h = ok ((t, b), ⟨n, b :: h.live⟩) ∧ h.next ≤ b
  | err e => f h = err e
  | ub => f h = ub
  | hang => f h = hang
  | abort => f h = abort

theorem hToStr_renders (o : Outcome (List UInt8)) : Renders o (hToStr o) := by
  intro h
  unfold hToStr
  cases o with
  | ok t =>
    dsimp only
    rw [ok_bind, detach_frame t (u := (hUbufNew h).1) (L := h.live) rfl (by simp [hUbufNew, Heap.malloc])]
    exact ⟨_, _, rfl, by simp [hUbufNew, Heap.malloc]⟩
  | _ => rfl

/-- **C76**: `wdns_rdata_to_str`, `wdns_rr_to_str`, `wdns_rrset_to_str` and `wdns_rrset_array_to_str` with their allocations: the
text handed to the caller is the only new block. -/
theorem C76_to_str (w : List UInt8) (rdlen ty cls sec : Nat) (rr : RR) (s : RRset) (a : RRsetArray) :
    Renders (rdataToStr w rdlen ty cls) (hToStr (rdataToStr w rdlen ty cls)) ∧ Renders (rrToStr rr sec) (hToStr (rrToStr rr sec)) ∧
    Renders (rrsetToStr s sec) (hToStr (rrsetToStr s sec)) ∧ Renders (rrsetArrayToStr a sec) (hToStr (rrsetArrayToStr a sec)) :=
  ⟨hToStr_renders _, hToStr_renders _, hToStr_renders _, hToStr_renders _⟩

theorem hMsgEdns_sim (e : Edns) (h : Heap) : Sims h.live (msgEdns e) (hMsgEdns e h) := by
  unfold hMsgEdns
  split
  · cases msgEdns e with
    | ok t =>
      dsimp only
      have h1 : (hUbufNew h).2.use (some (hUbufNew h).1.vec) = ok () := use_head rfl
      rw [ok_bind, h1, ok_bind, ubuf_destroy (L := h.live) rfl]
      exact Sims.ret rfl
    | _ => rfl
  · exact Sims.lift rfl

/-- **C76**: `wdns_message_to_str` with its allocations, the second buffer for the EDNS options among them. -/
theorem C76_message_to_str (m : Message) : Renders (messageToStr m) (hMessageToStr m) := by
  intro h
  unfold hMessageToStr
  have key := hMsgEdns_sim m.edns (hUbufNew h).2
  cases he : msgEdns m.edns with
  | ok t =>
    rw [he] at key
    obtain ⟨h', e, hl⟩ := key
    dsimp only
    rw [e]
    cases hm : messageToStr m with
    | ok t =>
      dsimp only
      simp only [ok_bind]
      have := detach_frame t (u := (hUbufNew h).1) (L := h.live) (h := h') hl (by simp [hUbufNew, Heap.malloc])
      dsimp only at this
      rw [this]
      exact ⟨_, _, rfl, by simp [hUbufNew, Heap.malloc]⟩
    | _ => rfl
  | err e =>
    rw [he] at key
    have hm : messageToStr m = err e := by unfold messageToStr; rw [he]; rfl
    rw [hm]; dsimp only; rw [show hMsgEdns m.edns (hUbufNew h).2 = err e from key]; rfl
  | ub =>
    rw [he] at key
    have hm : messageToStr m = ub := by unfold messageToStr; rw [he]; rfl
    rw [hm]; dsimp only; rw [show hMsgEdns m.edns (hUbufNew h).2 = ub from key]; rfl
  | hang =>
    rw [he] at key
    have hm : messageToStr m = hang := by unfold messageToStr; rw [he]; rfl
    rw [hm]; dsimp only; rw [show hMsgEdns m.edns (hUbufNew h).2 = hang from key]; rfl
  | abort =>
    rw [he] at key
    have hm : messageToStr m = abort := by unfold messageToStr; rw [he]; rfl
    rw [hm]; dsimp only; rw [show hMsgEdns m.edns (hUbufNew h).2 = abort from key]; rfl

/-- **C76**: the `wdns_print_*` functions write exactly the text of the function that renders, and leave the heap as it was. -/
theorem C76_print {o : Outcome (List UInt8)} {f : Heap → Outcome ((List UInt8 × Nat) × Heap)} (hr : Renders o f) (out : List UInt8) (h : Heap)
    (t : List UInt8) (ho : o = ok t) : ∃ n, hPrint f out h = ok (out ++ t, ⟨n, h.live⟩) := by
  have := hr h
  rw [ho] at this
  obtain ⟨b, n, e, _⟩ := this
  unfold hPrint
  rw [e]
  simp only [ok_bind]
  rw [use_head rfl, ok_bind, free_head rfl]
  exact ⟨n, rfl⟩

theorem C76_print_functions (m : Message) (rr : RR) (s : RRset) (a : RRsetArray) (sec : Nat) (out : List UInt8) (h : Heap) :
    (∀ t, messageToStr m = ok t → ∃ n, hPrint (hMessageToStr m) out h = ok (out ++ t, ⟨n, h.live⟩)) ∧
    (∀ t, rrToStr rr sec = ok t → ∃ n, hPrint (hToStr (rrToStr rr sec)) out h = ok (out ++ t, ⟨n, h.live⟩)) ∧
    (∀ t, rrsetToStr s sec = ok t → ∃ n, hPrint (hToStr (rrsetToStr s sec)) out h = ok (out ++ t, ⟨n, h.live⟩)) ∧
    (∀ t, rrsetArrayToStr a sec = ok t → ∃ n, hPrint (hToStr (rrsetArrayToStr a sec)) out h = ok (out ++ t, ⟨n, h.live⟩)) :=
  ⟨fun t ht => C76_print (C76_message_to_str m) out h t ht, fun t ht => C76_print (hToStr_renders _) out h t ht,
   fun t ht => C76_print (hToStr_renders _) out h t ht, fun t ht => C76_print (hToStr_renders _) out h t ht⟩

/-- Loading names: the live blocks afterwards are those of the names given to the callback, each once, and those from before. -/
theorem hLoadLoop_sim : ∀ (fuel : Nat) (f : List UInt8) (h : Heap),
    match loadLoop fuel f with
    | ok r => ∃ bs n, hLoadLoop fuel f h = ok ((r.1.zip bs, r.2), ⟨n, bs.reverse ++ h.live⟩) ∧ bs.length = r.1.length ∧ h.next ≤ n ∧
        (∀ b ∈ bs, h.next ≤ b ∧ b < n) ∧ bs.Nodup
    | err e => hLoadLoop fuel f h = err e
    | ub => hLoadLoop fuel f h = ub
    | hang => hLoadLoop fuel f h = hang
    | abort => hLoadLoop fuel f h = abort
  | 0, f, h => by unfold loadLoop hLoadLoop; rfl
  | fuel + 1, f, h => by
    rw [loadLoop.eq_def, hLoadLoop.eq_def]
    dsimp only
    cases hg : fgets 1280 f with
    | none => exact ⟨[], h.next, by simp, rfl, Nat.le_refl _, by simp, by simp⟩
    | some lr =>
      obtain ⟨line, rest⟩ := lr
      dsimp only
      unfold loadLine
      dsimp only
      by_cases h1 : line.getD 0 0 = 10 ∨ line.getD 0 0 = 32 ∨ line.getD 0 0 = 35
      · rw [if_pos h1, if_pos h1]; exact hLoadLoop_sim fuel rest h
      · rw [if_neg h1, if_neg h1]
        by_cases h2 : cstrOf line = []
        · rw [if_pos h2, if_pos h2]
        · rw [if_neg h2, if_neg h2]
          generalize (if (cstrOf line).getLast? = some 10 then (cstrOf line).dropLast else cstrOf line) = s
          have key := hStrToNameGen_sim s true h
          unfold strToName
          cases hn : strToNameGen s true with
          | ok n =>
            rw [hn] at key
            dsimp only at key
            rw [key]
            simp only [ok_bind]
            have ih := hLoadLoop_sim fuel rest ⟨h.next + 1, h.next :: h.live⟩
            cases hr : loadLoop fuel rest with
            | ok r =>
              rw [hr] at ih
              obtain ⟨bs, m, e, hl, hm, hb, hd⟩ := ih
              rw [e]
              refine ⟨h.next :: bs, m, by simp, by simp [hl], by have := hm; simp at this; omega, ?_, ?_⟩
              · intro b hb'
                simp only [List.mem_cons] at hb'
                rcases hb' with rfl | hb'
                · simp at hm; omega
                · have := hb b hb'; simp at this; omega
              · simp only [List.nodup_cons]
                refine ⟨fun hx => ?_, hd⟩
                have := (hb _ hx).1; simp at this; omega
            | _ => rw [hr] at ih; dsimp only at ih ⊢; rw [ih]; rfl
          | err e =>
            rw [hn] at key
            dsimp only at key
            rw [key]
            exact ⟨[], _, by simp; rfl, rfl, by omega, by simp, by simp⟩
          | _ => rw [hn] at key; dsimp only at key; rw [key]; rfl

/-- **C76**: `wdns_file_load_names` with its allocations and the open file: when it returns, with success or not, the file has been closed, and
the only new live blocks are those of the names that have been given to the callback, one for each. -/
theorem C76_file_load_names (file : Option (List UInt8)) (h : Heap) (names : List CName) (r : Res)
    (hf : fileLoadNames file = ok (names, r)) :
    ∃ bs n, hFileLoadNames file h = ok ((names.zip bs, r), ⟨n, bs.reverse ++ h.live⟩) ∧ bs.length = names.length ∧
      (∀ b ∈ bs, h.next ≤ b) ∧ bs.Nodup := by
  unfold fileLoadNames at hf
  unfold hFileLoadNames
  cases file with
  | none => cases hf; exact ⟨[], h.next, by simp, rfl, by simp, by simp⟩
  | some f =>
    dsimp only at hf ⊢
    have key := hLoadLoop_sim (f.length + 1) f h.malloc.2
    rw [hf] at key
    obtain ⟨bs, n, e, hl, _, hb, hd⟩ := key
    rw [e]
    have hx : h.malloc.1 ∉ bs := fun hx => by have := (hb _ hx).1; simp [Heap.malloc] at this; omega
    refine ⟨bs, n, ?_, hl, fun b hb' => by have := (hb b hb').1; simp [Heap.malloc] at this; omega, hd⟩
    simp only [ok_bind]
    unfold Heap.free
    have hm : h.malloc.1 ∈ bs.reverse ++ h.malloc.2.live := by simp [Heap.malloc]
    dsimp only
    rw [if_pos hm, List.erase_append_right _ (by simpa using hx)]
    simp [Heap.malloc]

/-- The hypothesis of `C76_file_load_names`. -/
example : fileLoadNames (some (ascii "Www.a\n# x\nb\n")) = ok ([⟨7, [3, 119, 119, 119, 1, 97, 0]⟩, ⟨3, [1, 98, 0]⟩], .success) := by
  decide +kernel

/-- What is left of a call in the examples below. -/
def heapAfter {α : Type} (o : Outcome (Except Res α × Heap)) : Option (Option Res × List Nat) :=
  match o with
  | ok (.ok _, h) => some (none, h.live)
  | ok (.error e, h) => some (some e, h.live)
  | _ => none

/-- Cases of every kind: a name field that fails after its blocks are made, a type list with more than sixteen entries (the list grows), an
unknown type in the list, a service parameter with a bad value. -/
example :
    heapAfter (hStrToRdata (ascii "a..b") 2 1 ⟨0, []⟩) = some (some .parseError, []) ∧
    heapAfter (hStrToRdata (ascii "www.example.") 2 1 ⟨7, [3]⟩) = some (none, [8, 3]) ∧
    heapAfter (hStrToRdata (ascii "a A NS MX TXT AAAA TYPE1 TYPE2 TYPE3 TYPE4 TYPE5 TYPE6 TYPE7 TYPE8 TYPE9 TYPE10 TYPE11 TYPE12 TYPE13") 47 1
      ⟨4, [3]⟩) = some (none, [5, 3]) ∧
    heapAfter (hStrToRdata (ascii "a A NS MX TXT NOSUCH") 47 1 ⟨4, [3]⟩) = some (some .parseError, [3]) ∧
    heapAfter (hStrToRdata (ascii "1 . port=70000") 64 1 ⟨4, [3]⟩) = some (some .parseError, [3]) := by
  decide +kernel

end Wdns
