import Verif.Model.ArgvExit
import Verif.Props.ArgvTell

/-!
# C126: in its default mode `argv_process` returns only with a line that is accepted
-/

namespace Wdns
open Outcome Spec

namespace Spec

/-- What a user can ask for on a command line. -/
inductive Request
  /-- The usage message of the kind that the program has chosen. -/
  | usual
  /-- One of the given kind. -/
  | usage (kind : Nat)
  | version
  | display
deriving DecidableEq, Repr

/-- The words for that, in the order in which they are tried. -/
def requests : List (String × Request) :=
  [("usage", .usual), ("help", .usual), ("usage-short", .usage 1), ("usage-long", .usage 2), ("usage-all", .usage 6), ("version", .version),
    ("argv-display", .display)]

/-- `w` is the beginning of a word for `k`, and not of an earlier one. -/
def Means (w : List UInt8) (k : Request) : Prop :=
  ∃ i n, requests[i]? = some (n, k) ∧ w <+: ascii n ∧ ∀ (j : Nat) n' k', j < i → requests[j]? = some (n', k') → ¬ w <+: ascii n'

/-- An argument asks for something: it is `--` and the beginning of one of the words, and no option of the program (nor `argv-file`)
begins like that; or there is a `?` among short options, which is not one of the program's. -/
inductive Asks (cfg : ACfg) (g : List AEntry) : List UInt8 → Request → Prop
  | long {a w : List UInt8} {k : Request} : a.take 2 = ascii "--" → punch cfg a = ascii "--" ++ w → w ≠ [] →
      (∀ i e l, EntryIs g i e → e.long = some l → ¬ w <+: l) → ¬ w <+: ascii "argv-file" → Means w k → Asks cfg g a k
  | short {a w : List UInt8} : a.take 1 = ascii "-" → a.take 2 ≠ ascii "--" → punch cfg a = ascii "-" ++ w → (63 : UInt8) ∈ w →
      (∀ i e, EntryIs g i e → e.short ≠ 63) → Asks cfg g a .usual

/-- What is written for a request: a usage message (C121), the version, or the variables (C122). -/
def reply (m : Manners) (g : List AEntry) : Request → Outcome (List UInt8)
  | .usual => doUsage m.voice.prog (withTexts g m.texts) m.usageType
  | .usage n => doUsage m.voice.prog (withTexts g m.texts) n
  | .version => ok (m.voice.prog ++ ascii ": " ++ m.version.getD (ascii "no version information is available.") ++ [10])
  | .display => displayVariables m.real (withTexts g m.texts) m.buf

/-- The same when the variables may have been changed by earlier arguments. -/
def Answers (m : Manners) (g : List AEntry) (k : Request) (u : List UInt8) : Prop := ∃ g', coresOf g' = coresOf g ∧ reply m g' k = ok u

end Spec

variable {m : Manners} {cfg : ACfg} {g : List AEntry} {W : List UInt8 → Prop}

/-- What the processing in the default mode has to do with the one that returns: the same, or the program is ended: after an answer to an
argument that asks for one, or since a file cannot be opened (then the other one refuses the line). -/
inductive Parted (m : Manners) (cfg : ACfg) (g : List AEntry) (W : List UInt8 → Prop) {α : Type} (Q bad : α → Prop) :
    Outcome (Ends α) → Outcome (α × List UInt8) → Prop
  | back {a : α} {t : List UInt8} : Q a → Complaints m.voice cfg g t → Parted m cfg g W Q bad (ok (.back a t)) (ok (a, t))
  | answer {t u a : List UInt8} {k : Request} {T : Outcome (α × List UInt8)} : Complaints m.voice cfg g t → W a → Asks cfg g a k →
      Answers m g k u → Parted m cfg g W Q bad (ok (.exit 0 (t ++ u))) T
  | noFile {t path : List UInt8} {T : Outcome (α × List UInt8)} : Complaints m.voice cfg g t → path ≠ ascii "-" →
      (∀ r, T = ok r → bad r.1) → Parted m cfg g W Q bad (ok (.exit m.errCode (t ++ tellFile m.voice path))) T
  | failed {a : List UInt8} {k : Request} {x : Outcome (Ends α)} {T : Outcome (α × List UInt8)} : W a → Asks cfg g a k → (∀ e, x ≠ ok e) →
      Parted m cfg g W Q bad x T
  | err (r : Res) : Parted m cfg g W Q bad (err r) (err r)
  | ub : Parted m cfg g W Q bad ub ub
  | hang : Parted m cfg g W Q bad hang hang
  | abort : Parted m cfg g W Q bad abort abort

theorem goOn_back {α β : Type} (a : α) (t : List UInt8) (f : α → Outcome (Ends β)) : goOn (ok (.back a t)) f = f a >>= fun r => ok (r.after t) := rfl
theorem goOn_exit {α β : Type} (c : Nat) (t : List UInt8) (f : α → Outcome (Ends β)) : goOn (ok (.exit c t)) f = ok (.exit c t) := rfl

theorem goOn_fails {α β : Type} {x : Outcome (Ends α)} (h : ∀ e, x ≠ ok e) (f : α → Outcome (Ends β)) : ∀ e, goOn x f ≠ ok e := by
  intro e he
  unfold goOn at he
  rw [bind_eq_ok] at he
  obtain ⟨y, hy, -⟩ := he
  exact h y hy

theorem Parted.bind {α β : Type} {Q bad : α → Prop} {Q' bad' : β → Prop} {I : Outcome (Ends α)} {T : Outcome (α × List UInt8)}
    (h : Parted m cfg g W Q bad I T) {F : α → Outcome (Ends β)} {G : α → Outcome (β × List UInt8)}
    (hk : ∀ a, Q a → Parted m cfg g W Q' bad' (F a) (G a)) (hb : ∀ a r, bad a → G a = Outcome.ok r → bad' r.1) :
    Parted m cfg g W Q' bad' (goOn I F) (T >>= fun r => G r.1 >>= fun q => Outcome.ok (q.1, r.2 ++ q.2)) := by
  cases h with
  | err r => exact .err r
  | ub => exact .ub
  | hang => exact .hang
  | abort => exact .abort
  | failed hw ha hx => exact .failed hw ha (goOn_fails hx F)
  | answer ht hw ha hu => exact .answer ht hw ha hu
  | noFile ht hp hT =>
    refine .noFile ht hp fun r hr => ?_
    rw [bind_eq_ok] at hr
    obtain ⟨x, hx, hr⟩ := hr
    rw [bind_eq_ok] at hr
    obtain ⟨y, hy, hr⟩ := hr
    cases hr
    exact hb _ y (hT _ hx) hy
  | @back a t hq ht =>
    rw [goOn_back, ok_bind]
    dsimp only
    have := hk a hq
    generalize F a = f at this ⊢
    generalize G a = d at this ⊢
    cases this with
    | err r => exact .err r
    | ub => exact .ub
    | hang => exact .hang
    | abort => exact .abort
    | failed hw ha hx =>
      refine .failed hw ha fun e he => ?_
      rw [bind_eq_ok] at he
      obtain ⟨y, hy, -⟩ := he
      exact hx y hy
    | answer ht' hw ha hu =>
      rw [ok_bind]
      show Parted m cfg g W Q' bad' (Outcome.ok (.exit 0 (t ++ (_ ++ _)))) _
      rw [← List.append_assoc]
      exact .answer (ht.append ht') hw ha hu
    | noFile ht' hp hT =>
      rw [ok_bind]
      show Parted m cfg g W Q' bad' (Outcome.ok (.exit _ (t ++ (_ ++ _)))) _
      rw [← List.append_assoc]
      refine .noFile (ht.append ht') hp fun r hr => ?_
      rw [bind_eq_ok] at hr
      obtain ⟨y, hy, hr⟩ := hr
      cases hr
      exact hT y hy
    | back hq' ht' => exact .back hq' (ht.append ht')

/-- What is kept: the options, and where standard input comes from. -/
def KeptFrom (g : List AEntry) (W : List UInt8 → Prop) (s : AState) : Prop :=
  coresOf s.grid = coresOf g ∧ ∀ a ∈ fileLines s.stdin.length s.stdin, W a

/-- What is wrong after a file that cannot be opened, and stays so. -/
def Refused (g : List AEntry) (s : AState) : Prop := s.okay = false ∧ coresOf s.grid = coresOf g

theorem doArg_stdin {i : Nat} {close : Option (List UInt8)} {s s' : AState} (h : doArg cfg i close s = ok s') : s'.stdin = s.stdin := by
  unfold doArg at h
  rw [bind_eq_ok] at h; obtain ⟨e, -, h⟩ := h
  dsimp only at h
  rw [bind_eq_ok] at h; obtain ⟨c, -, h⟩ := h
  split at h
  · rw [bind_eq_ok] at h; obtain ⟨r, -, h⟩ := h
    cases h; rfl
  · split at h
    · cases h; rfl
    · cases h

/-- A step that always returns. -/
theorem parted_returning {T : Outcome (AState × List UInt8)} {D : Outcome AState} {b : Bool} (h : ToldAs m.voice cfg g b T D)
    (hw : ∀ s, D = Outcome.ok s → ∀ a ∈ fileLines s.stdin.length s.stdin, W a) :
    Parted m cfg g W (KeptFrom g W) (Refused g) (returning T) T := by
  cases h with
  | err r => exact .err r
  | ub => exact .ub
  | hang => exact .hang
  | abort => exact .abort
  | ok hc ho ht => exact .back ⟨hc, hw _ rfl⟩ ht

theorem toldAs_refused {v : Voice} {T : Outcome (AState × List UInt8)} {D : Outcome AState} {b : Bool} (h : ToldAs v cfg g b T D) (hb : b = false)
    {r : AState × List UInt8} (hr : T = Outcome.ok r) : Refused g r.1 := by
  cases h with
  | err r => cases hr
  | ub => cases hr
  | hang => cases hr
  | abort => cases hr
  | @ok s t hc ho ht =>
    cases hr
    refine ⟨?_, hc⟩
    cases hk : s.okay with
    | false => rfl
    | true => rw [hk, hb] at ho; simp at ho

theorem parted_arg {i : Nat} (hi : i < lastIdx g) (close : Option (List UInt8)) {s : AState} (hs : KeptFrom g W s) :
    Parted m cfg g W (KeptFrom g W) (Refused g) (returning (tArg m.voice cfg i close s)) (tArg m.voice cfg i close s) :=
  parted_returning (tArg_spec hi close hs.1) fun s' h => by rw [doArg_stdin h]; exact hs.2

/-- The words, and what they mean. -/
theorem answerWord_means {g' : List AEntry} {w : List UInt8} :
    (∀ x, answerWord m.real m.voice.prog m.usageType m.help m.version (withTexts g' m.texts) m.buf w = some x → ∃ k, Means w k ∧ x = reply m g' k) ∧
    (answerWord m.real m.voice.prog m.usageType m.help m.version (withTexts g' m.texts) m.buf w = none ↔
      ¬ (w.isPrefixOf (ascii "usage") ∨ w.isPrefixOf (ascii "help") ∨ w.isPrefixOf (ascii "usage-short") ∨
          w.isPrefixOf (ascii "usage-long") ∨ w.isPrefixOf (ascii "usage-all") ∨ w.isPrefixOf (ascii "version") ∨
          w.isPrefixOf (ascii "argv-display"))) := by
  have means : ∀ (i : Nat) (n : String) (k : Request), requests[i]? = some (n, k) → w.isPrefixOf (ascii n) = true →
      (∀ p ∈ requests.take i, ¬ w.isPrefixOf (ascii p.1) = true) → Means w k := by
    intro i n k h1 h2 h3
    refine ⟨i, n, h1, List.isPrefixOf_iff_prefix.mp h2, fun j n' k' hj hn' hp => ?_⟩
    refine h3 (n', k') ?_ (List.isPrefixOf_iff_prefix.mpr hp)
    refine List.mem_iff_getElem?.mpr ⟨j, ?_⟩
    rw [List.getElem?_take_of_lt hj, hn']
  unfold answerWord
  by_cases h0 : w.isPrefixOf (ascii "usage") = true
  · rw [if_pos (.inl h0)]
    refine ⟨fun x hx => ⟨.usual, means 0 "usage" _ rfl h0 (by simp [requests]), (by cases hx; rfl)⟩, ?_⟩
    simp [h0]
  by_cases h1 : w.isPrefixOf (ascii "help") = true
  · rw [if_pos (.inr h1)]
    refine ⟨fun x hx => ⟨.usual, means 1 "help" _ rfl h1 ?_, (by cases hx; rfl)⟩, ?_⟩
    · intro p hp
      simp [requests] at hp
      rcases hp with rfl
      exact h0
    · simp [h1]
  rw [if_neg (show ¬ (w.isPrefixOf (ascii "usage") = true ∨ w.isPrefixOf (ascii "help") = true) from fun h => h.elim h0 h1)]
  by_cases h2 : w.isPrefixOf (ascii "usage-short") = true
  · rw [if_pos h2]
    refine ⟨fun x hx => ⟨.usage 1, means 2 "usage-short" _ rfl h2 ?_, (by cases hx; rfl)⟩, ?_⟩
    · intro p hp
      simp [requests] at hp
      rcases hp with rfl | rfl
      · exact h0
      · exact h1
    · simp [h2]
  rw [if_neg h2]
  by_cases h3 : w.isPrefixOf (ascii "usage-long") = true
  · rw [if_pos h3]
    refine ⟨fun x hx => ⟨.usage 2, means 3 "usage-long" _ rfl h3 ?_, (by cases hx; rfl)⟩, ?_⟩
    · intro p hp
      simp [requests] at hp
      rcases hp with rfl | rfl | rfl
      · exact h0
      · exact h1
      · exact h2
    · simp [h3]
  rw [if_neg h3]
  by_cases h4 : w.isPrefixOf (ascii "usage-all") = true
  · rw [if_pos h4]
    refine ⟨fun x hx => ⟨.usage 6, means 4 "usage-all" _ rfl h4 ?_, (by cases hx; rfl)⟩, ?_⟩
    · intro p hp
      simp [requests] at hp
      rcases hp with rfl | rfl | rfl | rfl
      · exact h0
      · exact h1
      · exact h2
      · exact h3
    · simp [h4]
  rw [if_neg h4, if_neg h1]
  by_cases h5 : w.isPrefixOf (ascii "version") = true
  · rw [if_pos h5]
    refine ⟨fun x hx => ⟨.version, means 5 "version" _ rfl h5 ?_, ?_⟩, ?_⟩
    · intro p hp
      simp [requests] at hp
      rcases hp with rfl | rfl | rfl | rfl | rfl
      · exact h0
      · exact h1
      · exact h2
      · exact h3
      · exact h4
    · cases hx
      unfold reply
      cases m.version <;> rfl
    · simp [h5]
  rw [if_neg h5]
  by_cases h6 : w.isPrefixOf (ascii "argv-display") = true
  · rw [if_pos h6]
    refine ⟨fun x hx => ⟨.display, means 6 "argv-display" _ rfl h6 ?_, (by cases hx; rfl)⟩, ?_⟩
    · intro p hp
      simp [requests] at hp
      rcases hp with rfl | rfl | rfl | rfl | rfl | rfl
      · exact h0
      · exact h1
      · exact h2
      · exact h3
      · exact h4
      · exact h5
    · simp [h6]
  rw [if_neg h6]
  refine ⟨fun x hx => (by cases hx), ?_⟩
  simp [h0, h1, h2, h3, h4, h5, h6]

/-- An answer, or none because it cannot be given. -/
theorem parted_answer {α : Type} {Q bad : α → Prop} {g' : List AEntry} (hc : coresOf g' = coresOf g) {a : List UInt8} {k : Request} (hw : W a) (ha : Asks cfg g a k)
    (T : Outcome (α × List UInt8)) : Parted m cfg g W Q bad (reply m g' k >>= fun t => ok (.exit 0 t)) T := by
  cases hxx : reply m g' k with
  | err r => exact .failed hw ha (by simp)
  | ub => exact .failed hw ha (by simp)
  | hang => exact .failed hw ha (by simp)
  | abort => exact .failed hw ha (by simp)
  | ok u =>
    rw [ok_bind]
    have := Parted.answer (m := m) (Q := Q) (bad := bad) (t := []) (T := T) .nil hw ha (u := u) ⟨g', hc, hxx⟩
    simpa using this

theorem parted_long (hl : lastIdx g < g.length) {IK : List UInt8 → AState → Outcome (Ends AState)} {TK : List UInt8 → AState → Outcome (AState × List UInt8)}
    (hK : ∀ path s, KeptFrom g W s → Parted m cfg g W (KeptFrom g W) (Refused g) (IK path s) (TK path s))
    {a : List UInt8} (ha : a.take 2 = ascii "--") (hw : W a) {s : AState} (hs : KeptFrom g W s) :
    Parted m cfg g W (KeptFrom g W) (Refused g) (iLong m cfg IK a s) (tLong m.voice cfg TK a s) := by
  obtain ⟨w, hpw, hd⟩ := punch_long (cfg := cfg) ha
  have hc := hs.1
  have hlen : s.grid.length = g.length := by simpa [coresOf] using congrArg List.length hc
  have hls : lastIdx s.grid < s.grid.length := by rw [lastIdx_core hc, hlen]; exact hl
  -- what is written is true: by the relation for the processing that returns
  have told : ∀ (b : Bool) {s' : AState} {t : List UInt8}, KeptFrom g W s' → ToldAs m.voice cfg g b (ok (s', t)) (ok s') →
      Parted m cfg g W (KeptFrom g W) (Refused g) (ok (.back s' t)) (ok (s', t)) := by
    intro b s' t hk h
    cases h with
    | ok _ _ ht => exact .back hk ht
  have hspec := tLong_spec (v := m.voice) (cfg := cfg) (g := g) hl (TK := fun _ _ => ub) (DK := fun _ _ => ub) (fun _ _ _ => .ub) ha hc
  unfold iLong tLong
  unfold tLong doLong at hspec
  dsimp only at hspec ⊢
  rw [hd, hpw] at hspec ⊢
  by_cases h0 : w = []
  · rw [if_pos h0, if_pos h0] at hspec
    rw [if_pos h0, if_pos h0]
    exact told _ hs hspec
  · rw [if_neg h0, if_neg h0] at hspec
    rw [if_neg h0, if_neg h0]
    cases hr : longLoop w s.grid 0 none with
    | err r => exact .err r
    | ub => exact .ub
    | hang => exact .hang
    | abort => exact .abort
    | ok r =>
      rw [hr, ok_bind, ok_bind] at hspec
      rw [ok_bind, ok_bind]
      cases r with
      | two => exact told _ hs hspec
      | found i => exact parted_arg (by rw [← lastIdx_core hc]; exact longLoop_found_lt hls hr) _ hs
      | no =>
        dsimp only at hspec ⊢
        by_cases hf : w.isPrefixOf (ascii "argv-file") = true
        · rw [if_pos hf, if_pos hf]
          cases closeText cfg a with
          | some path => exact hK path s hs
          | none =>
            dsimp only
            split
            · exact .back hs .nil
            · exact .ub
        · rw [if_neg hf, if_neg hf] at hspec
          rw [if_neg hf, if_neg hf]
          have hno : ∀ i e l, EntryIs g i e → e.long = some l → ¬ w <+: l := by
            intro i e l he hle hp
            obtain ⟨e0, k1, k2⟩ := EntryIs.core hc.symm he
            exact (longLoop_no hr).2 i e0 l k1 (by rw [(core_fields k2).2.1]; exact hle) hp
          obtain ⟨m1, m2⟩ := answerWord_means (m := m) (g' := s.grid) (w := w)
          cases hx : answerWord m.real m.voice.prog m.usageType m.help m.version (withTexts s.grid m.texts) m.buf w with
          | some x =>
            obtain ⟨k, hk, he⟩ := m1 x hx
            rw [he]
            exact parted_answer hc hw (.long ha hpw h0 hno (fun h => hf (List.isPrefixOf_iff_prefix.mpr h)) hk) _
          | none =>
            have := m2.mp hx
            rw [if_neg this, if_neg this] at hspec
            rw [if_neg this]
            exact told _ hs hspec

theorem parted_cluster (hl : lastIdx g < g.length) {a : List UInt8} (hw : W a) {full : List UInt8} (close : Option (List UInt8)) :
    ∀ (cs : List UInt8) (first : Bool) {s : AState}, ((63 : UInt8) ∈ cs → (∀ i e, EntryIs g i e → e.short ≠ 63) → Asks cfg g a .usual) → KeptFrom g W s →
    Parted m cfg g W (KeptFrom g W) (Refused g) (iCluster m cfg full close cs first s) (tCluster m.voice cfg full close cs first s)
  | [], first, s, hq, hs => by rw [iCluster, tCluster]; exact .back hs .nil
  | c :: cs, first, s, hq, hs => by
    have hc := hs.1
    have hlen : s.grid.length = g.length := by simpa [coresOf] using congrArg List.length hc
    have hls : lastIdx s.grid < s.grid.length := by rw [lastIdx_core hc, hlen]; exact hl
    have hq' : (63 : UInt8) ∈ cs → (∀ i e, EntryIs g i e → e.short ≠ 63) → Asks cfg g a .usual := fun h => hq (by simp [h])
    have prop : ∀ (s : AState) (r : AState × List UInt8), Refused g s → tCluster m.voice cfg full close cs false s = ok r → Refused g r.1 := by
      intro s r hok hr
      have := tCluster_spec (v := m.voice) (cfg := cfg) hl full close cs false hok.2
      exact toldAs_refused this hok.1 hr
    rw [iCluster.eq_def, tCluster.eq_def]
    dsimp only
    rcases scanGrid_total (p := fun e => decide (e.short = c)) 0 hls with ⟨k, e, h1, h2, -⟩ | ⟨h1, h2⟩
    · rw [h1, ok_bind, ok_bind]
      dsimp only
      exact Parted.bind (parted_arg (by rw [← lastIdx_core hc]; omega) close hs) (G := fun s => tCluster m.voice cfg full close cs false s)
        (fun s hs => parted_cluster hl hw close cs false hq' hs) prop
    · rw [h1, ok_bind, ok_bind]
      dsimp only
      have hun : ∀ i e, EntryIs g i e → e.short ≠ c := by
        intro i e he hse
        obtain ⟨e0, k1, k2⟩ := EntryIs.core hc.symm he
        have := h2 i k1.1 e0 k1.2
        simp [(core_fields k2).1, hse] at this
      have bad : Parted m cfg g W (KeptFrom g W) (Refused g)
          (goOn (ok (.back { s with okay := false } (unknownShort m.voice c))) fun s => iCluster m cfg full close cs false s)
          (tCluster m.voice cfg full close cs false { s with okay := false } >>= fun q => ok (q.1, unknownShort m.voice c ++ q.2)) :=
        Parted.bind (T := ok ({ s with okay := false }, unknownShort m.voice c)) (.back (Q := KeptFrom g W) (bad := Refused g) hs (unknownShort_eq hun).one)
          (G := fun s => tCluster m.voice cfg full close cs false s) (fun s hs => parted_cluster hl hw close cs false hq' hs) prop
      split
      · rename_i h63
        subst h63
        exact parted_answer (k := .usual) hc hw (hq (by simp) hun) _
      · split
        · cases hq : s.queue[s.tail]? with
          | none => exact .ub
          | some o =>
            cases o with
            | none => exact .ub
            | some i =>
              dsimp only
              cases he : entryAt s.grid i with
              | err r => exact .err r
              | ub => exact .ub
              | hang => exact .hang
              | abort => exact .abort
              | ok e =>
                rw [ok_bind, ok_bind]
                split
                · rename_i hty
                  cases hr : stringToValue cfg (some full) e with
                  | err r => exact .err r
                  | ub => exact .ub
                  | hang => exact .hang
                  | abort => exact .abort
                  | ok r =>
                    rw [ok_bind, ok_bind]
                    have ht : tellType m.voice e.ty = [] := by
                      unfold tellType
                      rw [if_neg (by omega)]
                    rw [ht]
                    refine .back ⟨?_, hs.2⟩ .nil
                    show coresOf (s.grid.set i r.2) = _
                    rw [set_coresOf (entryAt_ok.mp he) (by
                      obtain ⟨x, hx⟩ := stringToValue_core hr
                      rw [hx]; rfl)]
                    exact hc
                · exact bad
        · exact bad

theorem parted_short (hl : lastIdx g < g.length) {a : List UInt8} (ha : a.take 1 = ascii "-") (ha2 : a.take 2 ≠ ascii "--") (hw : W a) {s : AState}
    (hs : KeptFrom g W s) : Parted m cfg g W (KeptFrom g W) (Refused g) (iShort m cfg a s) (tShort m.voice cfg a s) := by
  obtain ⟨w, hpw, hd⟩ := punch_short (cfg := cfg) ha
  have hspec := tShort_spec (v := m.voice) (cfg := cfg) (g := g) hl ha hs.1
  unfold iShort tShort
  unfold tShort doShort at hspec
  dsimp only at hspec ⊢
  rw [hd] at hspec ⊢
  by_cases h0 : w = []
  · rw [if_pos h0, if_pos h0] at hspec
    rw [if_pos h0, if_pos h0]
    cases hspec with
    | ok _ _ ht => exact .back hs ht
  · rw [if_neg h0, if_neg h0]
    exact parted_cluster hl hw _ _ _ (fun h1 h2 => .short ha ha2 hpw h1 h2) hs

/-! ### Values and lists -/

theorem tValue_noFile {v : Voice} {a : List UInt8} {s : AState} (TK TK' : List UInt8 → AState → Outcome (AState × List UInt8))
    (h : ∀ e0, entryAt s.grid 0 = ok e0 → ¬ (e0.short ≠ argvLast ∧ s.queue.length > s.tail ∧ s.queue[s.tail]? = some none)) :
    tValue v cfg TK a s = tValue v cfg TK' a s := by
  unfold tValue
  cases he : entryAt s.grid 0 with
  | err r => rfl
  | ub => rfl
  | hang => rfl
  | abort => rfl
  | ok e0 =>
    have := h e0 he
    rw [ok_bind, ok_bind]
    by_cases h1 : e0.short ≠ argvLast ∧ s.queue.length > s.tail
    · rw [if_pos h1, if_pos h1]
      cases hq : s.queue[s.tail]? with
      | none => rfl
      | some o =>
        cases o with
        | none => exact absurd ⟨h1.1, h1.2, hq⟩ this
        | some i => rfl
    · rw [if_neg h1, if_neg h1]

theorem tValue_stdin {v : Voice} {a : List UInt8} {s : AState} {r : AState × List UInt8 × Nat}
    (h : tValue v cfg (fun _ _ => ub) a s = ok r) : r.1.stdin = s.stdin := by
  unfold tValue at h
  rw [bind_eq_ok] at h; obtain ⟨e0, -, h⟩ := h
  split at h
  · split at h
    · cases h
    · rw [bind_eq_ok] at h; obtain ⟨e, -, h⟩ := h
      rw [bind_eq_ok] at h; obtain ⟨q, -, h⟩ := h
      cases h; rfl
    · cases h
  · rw [bind_eq_ok] at h; obtain ⟨k, -, h⟩ := h
    cases k with
    | some i =>
      dsimp only at h
      rw [bind_eq_ok] at h; obtain ⟨e, -, h⟩ := h
      rw [bind_eq_ok] at h; obtain ⟨q, -, h⟩ := h
      cases h; rfl
    | none =>
      dsimp only at h
      rw [bind_eq_ok] at h; obtain ⟨k, -, h⟩ := h
      cases k with
      | some i =>
        dsimp only at h
        rw [bind_eq_ok] at h; obtain ⟨e, -, h⟩ := h
        rw [bind_eq_ok] at h; obtain ⟨q, -, h⟩ := h
        cases h; rfl
      | none => cases h; rfl

/-- How a value is read, with the count beside the state. -/
def valuePair (T : Outcome (AState × List UInt8 × Nat)) : Outcome ((AState × Nat) × List UInt8) := T >>= fun r => ok ((r.1, r.2.2), r.2.1)

theorem parted_value {IK : List UInt8 → AState → Outcome (Ends AState)} {TK : List UInt8 → AState → Outcome (AState × List UInt8)}
    (hK : ∀ path s, KeptFrom g W s → Parted m cfg g W (KeptFrom g W) (Refused g) (IK path s) (TK path s)) (a : List UInt8) {s : AState} (hs : KeptFrom g W s) :
    Parted m cfg g W (fun q => KeptFrom g W q.1) (fun q => Refused g q.1) (iValue m cfg IK a s)
      (valuePair (tValue m.voice cfg TK a s)) := by
  unfold iValue
  cases he : entryAt s.grid 0 with
  | err r => unfold tValue; rw [he]; exact .err r
  | ub => unfold tValue; rw [he]; exact .ub
  | hang => unfold tValue; rw [he]; exact .hang
  | abort => unfold tValue; rw [he]; exact .abort
  | ok e0 =>
    rw [ok_bind]
    split
    · rename_i h
      unfold tValue
      rw [he, ok_bind, if_pos ⟨h.1, h.2.1⟩, h.2.2]
      dsimp only
      have := Parted.bind (hK a { s with tail := s.tail + 1 } hs) (F := fun s => ok (.back (s, 0) [])) (G := fun s => ok ((s, 0), []))
        (Q' := fun q => KeptFrom g W q.1) (bad' := fun q => Refused g q.1)
        (fun a ha => .back ha .nil) (fun a r ha hr => by cases hr; exact ha)
      have e : (valuePair (TK a { s with tail := s.tail + 1 } >>= fun r => ok (r.1, r.2, 0))) =
          (TK a { s with tail := s.tail + 1 } >>= fun r => ok ((r.1, 0), []) >>= fun q => ok (q.1, r.2 ++ q.2)) := by
        cases TK a { s with tail := s.tail + 1 } with
        | ok r => simp [valuePair]
        | err r => rfl
        | ub => rfl
        | hang => rfl
        | abort => rfl
      rw [e]
      exact this
    · rename_i h
      rw [tValue_noFile TK (fun _ _ => ub) (fun e hE => by rw [he] at hE; cases hE; exact h)]
      have hv := tValue_spec (v := m.voice) (cfg := cfg) (g := g) (TK := fun _ _ => ub) (DK := fun _ _ => ub) (fun _ _ _ => .ub) a hs.1
      have hstd := @tValue_stdin cfg m.voice a s
      generalize tValue m.voice cfg (fun _ _ => ub) a s = T at hv hstd ⊢
      generalize doValue cfg (fun _ _ => ub) a s = D at hv
      cases hv with
      | err r => exact .err r
      | ub => exact .ub
      | hang => exact .hang
      | abort => exact .abort
      | ok hc ho ht =>
        have := hstd rfl
        exact .back ⟨hc, by rw [this]; exact hs.2⟩ ht
      | unwanted hc ho =>
        have := hstd rfl
        exact .back ⟨hc, by rw [this]; exact hs.2⟩ .nil

/-- The result of a list, with the text beside it. -/
def listPair (T : Outcome (AState × List (List UInt8) × List UInt8)) : Outcome ((AState × List (List UInt8)) × List UInt8) :=
  T >>= fun r => ok ((r.1, r.2.1), r.2.2)

theorem listPair_cons (T : Outcome (AState × List (List UInt8) × List UInt8)) (w : List UInt8) :
    listPair (T >>= fun r => ok (r.1, w :: r.2.1, r.2.2)) =
      listPair T >>= fun y => ok ((y.1.1, w :: y.1.2), []) >>= fun z => ok (z.1, y.2 ++ z.2) := by
  cases T with
  | ok r => simp [listPair]
  | err r => rfl
  | ub => rfl
  | hang => rfl
  | abort => rfl

theorem listPair_step (T : Outcome (AState × List UInt8)) (F : AState → Outcome (AState × List (List UInt8) × List UInt8)) (w : List UInt8) :
    listPair (T >>= fun q => F q.1 >>= fun r => ok (r.1, w :: r.2.1, q.2 ++ r.2.2)) =
      T >>= fun q => listPair (F q.1 >>= fun r => ok (r.1, w :: r.2.1, r.2.2)) >>= fun x => ok (x.1, q.2 ++ x.2) := by
  cases T with
  | err r => rfl
  | ub => rfl
  | hang => rfl
  | abort => rfl
  | ok q =>
    rw [ok_bind, ok_bind]
    cases F q.1 with
    | ok r => rfl
    | err r => rfl
    | ub => rfl
    | hang => rfl
    | abort => rfl

theorem listPair_value (T : Outcome (AState × List UInt8 × Nat)) (F : Nat → AState → Outcome (AState × List (List UInt8) × List UInt8)) (w : List UInt8) :
    listPair (T >>= fun q => F q.2.2 q.1 >>= fun r => ok (r.1, w :: r.2.1, q.2.1 ++ r.2.2)) =
      valuePair T >>= fun q => listPair (F q.1.2 q.1.1 >>= fun r => ok (r.1, w :: r.2.1, r.2.2)) >>= fun x => ok (x.1, q.2 ++ x.2) := by
  cases T with
  | err r => rfl
  | ub => rfl
  | hang => rfl
  | abort => rfl
  | ok q =>
    unfold valuePair
    rw [ok_bind, ok_bind, ok_bind]
    dsimp only
    cases F q.2.2 q.1 with
    | ok r => rfl
    | err r => rfl
    | ub => rfl
    | hang => rfl
    | abort => rfl

theorem toldL_refused {v : Voice} {T : Outcome (AState × List (List UInt8) × List UInt8)} {D : Outcome (AState × List (List UInt8))} {b : Bool} {n : Nat}
    (h : ToldL v cfg g b n T D) (hb : b = false) {r : AState × List (List UInt8) × List UInt8} (hr : T = Outcome.ok r) : Refused g r.1 := by
  cases h with
  | err r => cases hr
  | ub => cases hr
  | hang => cases hr
  | abort => cases hr
  | @ok s as t hc ho hn ht =>
    cases hr
    refine ⟨?_, hc⟩
    by_cases h0 : 0 < n
    · exact (hn h0).1
    · have ho := ho (by omega)
      cases hk : s.okay with
      | false => rfl
      | true => rw [hk, hb] at ho; simp at ho

theorem parted_list (hl : lastIdx g < g.length) {IK : List UInt8 → AState → Outcome (Ends AState)} {TK : List UInt8 → AState → Outcome (AState × List UInt8)}
    {DK : List UInt8 → AState → Outcome AState}
    (hK : ∀ path s, KeptFrom g W s → Parted m cfg g W (KeptFrom g W) (Refused g) (IK path s) (TK path s))
    (hT : ∀ path s, coresOf s.grid = coresOf g → ToldAs m.voice cfg g s.okay (TK path s) (DK path s)) :
    ∀ (as : List (List UInt8)) (last : Bool) (n : Nat) {s : AState}, (∀ a ∈ as, W a) → KeptFrom g W s →
    Parted m cfg g W (fun q => KeptFrom g W q.1) (fun q => Refused g q.1) (iList m cfg IK as last n s) (listPair (tList m.voice cfg TK as last n s))
  | [], last, n, s, hw, hs => by
    rw [iList, tList]
    refine .back hs ?_
    by_cases h0 : 0 < n
    · exact (tellUnwanted_spec h0).1.one
    · have : tellUnwanted m.voice n = [] := by unfold tellUnwanted; rw [if_neg h0]
      rw [this]
      exact .nil
  | a :: as, last, n, s, hw, hs => by
    have hwa : W a := hw a (by simp)
    have hws : ∀ a ∈ as, W a := fun b hb => hw b (by simp [hb])
    have prop : ∀ (last : Bool) (n : Nat) (w : List UInt8) (s : AState) (r : (AState × List (List UInt8)) × List UInt8), Refused g s →
        listPair (tList m.voice cfg TK as last n s >>= fun r => ok (r.1, w :: r.2.1, r.2.2)) = ok r → Refused g r.1.1 := by
      intro last n w s r hs hr
      unfold listPair at hr
      rw [bind_eq_ok] at hr; obtain ⟨x, hx, hr⟩ := hr
      rw [bind_eq_ok] at hx; obtain ⟨y, hy, hx⟩ := hx
      cases hx
      cases hr
      exact toldL_refused (tList_spec hl hT as last n hs.2 (fun _ => hs.1)) hs.1 hy
    have rest : ∀ (last : Bool) (n : Nat) (w : List UInt8) (s : AState), KeptFrom g W s →
        Parted m cfg g W (fun q => KeptFrom g W q.1) (fun q => Refused g q.1) (goOn (iList m cfg IK as last n s) fun r => ok (.back (r.1, w :: r.2) []))
          (listPair (tList m.voice cfg TK as last n s >>= fun r => ok (r.1, w :: r.2.1, r.2.2))) := by
      intro last n w s hs
      rw [listPair_cons]
      exact Parted.bind (parted_list hl hK hT as last n hws hs) (F := fun r => ok (.back (r.1, w :: r.2) [])) (G := fun r => ok ((r.1, w :: r.2), []))
        (fun r hr => .back hr .nil) (fun r x hr hx => by cases hx; exact hr)
    rw [iList, tList]
    split
    · exact rest false n a s hs
    · split
      · exact rest true n a s hs
      · rename_i hnd
        split
        · rename_i h2
          rw [listPair_step (F := fun s => tList m.voice cfg TK as last n s)]
          exact Parted.bind (parted_long hl hK h2.2 hwa hs) (G := fun s => listPair (tList m.voice cfg TK as last n s >>= fun r => ok (r.1, punch cfg a :: r.2.1, r.2.2)))
            (fun s hs => rest last n _ s hs) (fun s r hs hr => prop last n _ s r hs hr)
        · rename_i h2
          split
          · rename_i h3
            rw [listPair_step (F := fun s => tList m.voice cfg TK as last n s)]
            exact Parted.bind (parted_short hl h3.2.1 (fun h => h2 ⟨h3.1, h⟩) hwa hs)
              (G := fun s => listPair (tList m.voice cfg TK as last n s >>= fun r => ok (r.1, punch cfg a :: r.2.1, r.2.2)))
              (fun s hs => rest last n _ s hs) (fun s r hs hr => prop last n _ s r hs hr)
          · rw [listPair_value (F := fun k s => tList m.voice cfg TK as last (n + k) s)]
            exact Parted.bind (parted_value hK a hs)
              (G := fun q => listPair (tList m.voice cfg TK as last (n + q.2) q.1 >>= fun r => ok (r.1, a :: r.2.1, r.2.2)))
              (fun q hq => rest last _ _ q.1 hq) (fun q r hq hr => prop last _ _ q.1 r hq hr)

/-- Every line of every file of arguments. -/
def InFiles (cfg : ACfg) (W : List UInt8 → Prop) : Prop := ∀ path text, cfg.files path = some text → ∀ a ∈ fileLines text.length text, W a

theorem parted_file (hl : lastIdx g < g.length) (hf : InFiles cfg W) : ∀ (n : Nat) (path : List UInt8) (s : AState), KeptFrom g W s →
    Parted m cfg g W (KeptFrom g W) (Refused g) (iFile m cfg n path s) (tFile m.voice cfg n path s)
  | 0, path, s, hs => by rw [iFile, tFile]; exact .hang
  | n + 1, path, s, hs => by
    have lists : ∀ (ls : List (List UInt8)) (s0 : AState) (f : AState → AState), KeptFrom g W s0 → (∀ a ∈ ls, W a) → (∀ s, (f s).grid = s.grid) →
        (∀ s, (f s).okay = s.okay) → (∀ s, (f s).stdin = s.stdin) →
        Parted m cfg g W (KeptFrom g W) (Refused g) (goOn (iList m cfg (iFile m cfg n) ls false 0 s0) fun r => ok (.back (f r.1) []))
          (tList m.voice cfg (tFile m.voice cfg n) ls false 0 s0 >>= fun r => ok (f r.1, r.2.2)) := by
      intro ls s0 f h0 hls hg hok hstd
      have e : (tList m.voice cfg (tFile m.voice cfg n) ls false 0 s0 >>= fun r => ok (f r.1, r.2.2)) =
          (listPair (tList m.voice cfg (tFile m.voice cfg n) ls false 0 s0) >>= fun y => ok (f y.1.1, []) >>= fun z => ok (z.1, y.2 ++ z.2)) := by
        cases tList m.voice cfg (tFile m.voice cfg n) ls false 0 s0 with
        | ok r => simp [listPair]
        | err r => rfl
        | ub => rfl
        | hang => rfl
        | abort => rfl
      rw [e]
      refine Parted.bind (parted_list hl (fun path s hs => parted_file hl hf n path s hs)
        (fun path s hs => tFile_spec (v := m.voice) (cfg := cfg) hl n path s hs) ls false 0 hls h0) (G := fun q => ok (f q.1, [])) (fun q hq => .back ⟨?_, ?_⟩ .nil) (fun q r hq hr => ?_)
      · rw [hg]; exact hq.1
      · rw [hstd]; exact hq.2
      · cases hr
        exact ⟨by rw [hok]; exact hq.1, by rw [hg]; exact hq.2⟩
    rw [iFile.eq_def, tFile.eq_def]
    dsimp only
    split
    · exact lists _ { s with stdin := [] } (fun s => s) ⟨hs.1, by simp [fileLines]⟩ hs.2 (fun _ => rfl) (fun _ => rfl) (fun _ => rfl)
    · rename_i hp
      have none : ∀ {T : Outcome (AState × List UInt8)}, (∀ r, T = ok r → Refused g r.1) →
          Parted m cfg g W (KeptFrom g W) (Refused g) (ok (.exit m.errCode (tellFile m.voice path))) T := by
        intro T hT
        have := Parted.noFile (m := m) (cfg := cfg) (g := g) (W := W) (Q := KeptFrom g W) (bad := Refused g) (t := []) .nil hp hT
        simpa using this
      cases hcf : cfg.files path with
      | none => exact none fun r hr => by cases hr; exact ⟨rfl, hs.1⟩
      | some text =>
        dsimp only
        split
        · exact none fun r hr => by cases hr; exact ⟨rfl, hs.1⟩
        · exact lists _ { s with fds := s.fds - 1, opens := s.opens + 1 } (fun s => { s with fds := s.fds + 1 }) hs (hf path text hcf) (fun _ => rfl)
            (fun _ => rfl) (fun _ => rfl)

/-! ### The whole line -/

namespace Spec

/-- An argument of the line, of the environment variable, or of a file of arguments (`-` is standard input). -/
def LineWord (cfg : ACfg) (argv : List (List UInt8)) (stdin : List UInt8) (a : List UInt8) : Prop :=
  a ∈ argv.tail ∨ (cfg.processEnv = true ∧ ∃ argv0, argv.head? = some argv0 ∧ a ∈ envArgs cfg argv0) ∨ a ∈ fileLines stdin.length stdin ∨
    ∃ path text, cfg.files path = some text ∧ a ∈ fileLines text.length text

end Spec

theorem goOn_ok {α β : Type} {x : Outcome (Ends α)} {f : α → Outcome (Ends β)} {e : Ends β} : goOn x f = ok e ↔
    (∃ a t e', x = ok (.back a t) ∧ f a = ok e' ∧ e = e'.after t) ∨ ∃ c t, x = ok (.exit c t) ∧ e = .exit c t := by
  unfold goOn
  rw [bind_eq_ok]
  constructor
  · rintro ⟨y, hy, h⟩
    cases y with
    | back a t =>
      dsimp only at h
      rw [bind_eq_ok] at h
      obtain ⟨e', h1, h2⟩ := h
      cases h2
      exact .inl ⟨a, t, e', hy, h1, rfl⟩
    | exit c t =>
      cases h
      exact .inr ⟨c, t, hy, rfl⟩
  · rintro (⟨a, t, e', h1, h2, rfl⟩ | ⟨c, t, h1, rfl⟩)
    · exact ⟨_, h1, by dsimp only; rw [h2]; rfl⟩
    · exact ⟨_, h1, rfl⟩

/-- A list of arguments as it is processed in each of the two modes. -/
theorem list_modes (hl : lastIdx g < g.length) (hf : InFiles cfg W) {fuel : Nat} (ls : List (List UInt8)) {s : AState} (hw : ∀ a ∈ ls, W a) (hs : KeptFrom g W s) :
    Parted m cfg g W (fun q => KeptFrom g W q.1) (fun q => Refused g q.1) (iList m cfg (iFile m cfg fuel) ls false 0 s)
      (listPair (tList m.voice cfg (tFile m.voice cfg fuel) ls false 0 s)) ∧
    ToldL m.voice cfg g s.okay 0 (tList m.voice cfg (tFile m.voice cfg fuel) ls false 0 s) (doList cfg (fileArgs cfg fuel) ls false s) :=
  ⟨parted_list hl (fun path s hs => parted_file hl hf fuel path s hs) (fun path s hs => tFile_spec hl fuel path s hs) ls false 0 hw hs,
   tList_spec hl (fun path s hs => tFile_spec hl fuel path s hs) ls false 0 hs.1 (by omega)⟩

/-- The list was processed to its end. -/
theorem list_back (hl : lastIdx g < g.length) (hf : InFiles cfg W) {fuel : Nat} {ls : List (List UInt8)} {s : AState} (hw : ∀ a ∈ ls, W a) (hs : KeptFrom g W s)
    {q : AState × List (List UInt8)} {t : List UInt8} (h : iList m cfg (iFile m cfg fuel) ls false 0 s = ok (.back q t)) :
    KeptFrom g W q.1 ∧ tList m.voice cfg (tFile m.voice cfg fuel) ls false 0 s = ok (q.1, q.2, t) ∧
    doList cfg (fileArgs cfg fuel) ls false s = ok q := by
  obtain ⟨hp, ht⟩ := list_modes (m := m) hl hf (fuel := fuel) ls hw hs
  rw [h] at hp
  generalize tList m.voice cfg (tFile m.voice cfg fuel) ls false 0 s = T at hp ht ⊢
  generalize doList cfg (fileArgs cfg fuel) ls false s = D at ht ⊢
  have aux : ∀ {Y : Outcome ((AState × List (List UInt8)) × List UInt8)}, Y = listPair T →
      Parted m cfg g W (fun q => KeptFrom g W q.1) (fun q => Refused g q.1) (ok (.back q t)) Y → KeptFrom g W q.1 ∧ listPair T = ok (q, t) := by
    intro Y hY h
    cases h with
    | back hq _ => exact ⟨hq, hY.symm⟩
    | failed _ _ hx => exact absurd rfl (hx _)
  obtain ⟨hq, hT⟩ := aux rfl hp
  unfold listPair at hT
  rw [bind_eq_ok] at hT
  obtain ⟨r, hr, hT⟩ := hT
  cases hr
  cases hT
  cases ht with
  | ok _ _ _ _ => exact ⟨hq, rfl, rfl⟩

/-- The program was ended in a list. -/
theorem list_exit (hl : lastIdx g < g.length) (hf : InFiles cfg W) {fuel : Nat} {ls : List (List UInt8)} {s : AState} (hw : ∀ a ∈ ls, W a) (hs : KeptFrom g W s)
    {c : Nat} {t : List UInt8} (h : iList m cfg (iFile m cfg fuel) ls false 0 s = ok (.exit c t)) :
    (c = 0 ∧ ∃ a k p u, W a ∧ Asks cfg g a k ∧ Answers m g k u ∧ Complaints m.voice cfg g p ∧ t = p ++ u) ∨
    (c = m.errCode ∧ (∀ q, doList cfg (fileArgs cfg fuel) ls false s = ok q → Refused g q.1) ∧
      ∃ p path, Complaints m.voice cfg g p ∧ path ≠ ascii "-" ∧ t = p ++ tellFile m.voice path) := by
  obtain ⟨hp, ht⟩ := list_modes (m := m) hl hf (fuel := fuel) ls hw hs
  rw [h] at hp
  generalize tList m.voice cfg (tFile m.voice cfg fuel) ls false 0 s = T at hp ht
  generalize doList cfg (fileArgs cfg fuel) ls false s = D at ht ⊢
  generalize hY : listPair T = Y at hp
  cases hp with
  | answer h1 h2 h3 h4 => exact .inl ⟨rfl, _, _, _, _, h2, h3, h4, h1, rfl⟩
  | noFile h1 h2 h3 =>
    refine .inr ⟨rfl, fun q hq => ?_, _, _, h1, h2, rfl⟩
    subst hq
    cases ht with
    | ok k1 k2 k3 k4 => exact h3 _ hY.symm
  | failed _ _ hx => exact absurd rfl (hx _)

/-- A list that is accepted and asks for nothing. -/
theorem list_quiet (hl : lastIdx g < g.length) (hf : InFiles cfg W) (hno : ∀ a k, W a → ¬ Asks cfg g a k) {fuel : Nat} {ls : List (List UInt8)} {s : AState}
    (hw : ∀ a ∈ ls, W a) (hs : KeptFrom g W s) {q : AState × List (List UInt8)} (h : doList cfg (fileArgs cfg fuel) ls false s = ok q)
    (hok : q.1.okay = true) : KeptFrom g W q.1 ∧ s.okay = true ∧ iList m cfg (iFile m cfg fuel) ls false 0 s = ok (.back q []) := by
  obtain ⟨hp, ht⟩ := list_modes (m := m) hl hf (fuel := fuel) ls hw hs
  rw [h] at ht
  generalize tList m.voice cfg (tFile m.voice cfg fuel) ls false 0 s = T at hp ht
  cases ht with
  | @ok s' as t k1 k2 k3 k4 =>
    obtain ⟨hb, rfl⟩ := (k2 rfl).mp hok
    change Parted m cfg g W _ _ _ (ok ((s', as), [])) at hp
    generalize iList m cfg (iFile m cfg fuel) ls false 0 s = I at hp ⊢
    cases hp with
    | back hq _ => exact ⟨hq, hb, rfl⟩
    | answer _ h2 h3 _ => exact absurd h3 (hno _ _ h2)
    | failed h2 h3 _ => exact absurd h3 (hno _ _ h2)
    | noFile _ _ h3 =>
      have := (h3 _ rfl).1
      rw [hok] at this
      cases this

/-- Where the words of a line come from. -/
structure Words (cfg : ACfg) (W : List UInt8 → Prop) (args env : List (List UInt8)) (stdin : List UInt8) : Prop where
  files : InFiles cfg W
  args : ∀ a ∈ args, W a
  env : cfg.processEnv = true → ∀ a ∈ env, W a
  stdin : ∀ a ∈ fileLines stdin.length stdin, W a

theorem Words.before {args env : List (List UInt8)} {stdin : List UInt8} (h : Words cfg W args env stdin) :
    ∀ a ∈ (if cfg.processEnv && !cfg.envAfter then env else []), W a := by
  intro a ha
  split at ha
  · rename_i hc
    rw [Bool.and_eq_true] at hc
    exact h.env hc.1 a ha
  · cases ha

theorem Words.after {args env : List (List UInt8)} {stdin : List UInt8} (h : Words cfg W args env stdin) :
    ∀ a ∈ (if cfg.processEnv && cfg.envAfter then env else []), W a := by
  intro a ha
  split at ha
  · rename_i hc
    rw [Bool.and_eq_true] at hc
    exact h.env hc.1 a ha
  · cases ha

/-- After a list in which something was refused the line is refused. -/
theorem refused_list (hl : lastIdx g < g.length) {fuel : Nat} {ls : List (List UInt8)} {s : AState} {q : AState × List (List UInt8)} (hs : Refused g s)
    (h : doList cfg (fileArgs cfg fuel) ls false s = ok q) : Refused g q.1 := by
  have := tList_spec (v := ⟨[], []⟩) (cfg := cfg) hl (fun path s hs => tFile_spec hl fuel path s hs) ls false 0 hs.2 (fun h => absurd h (by omega))
  rw [h] at this
  generalize tList ⟨[], []⟩ cfg (tFile ⟨[], []⟩ cfg fuel) ls false 0 s = T at this
  cases this with
  | @ok s' as t k1 k2 k3 k4 =>
    refine ⟨?_, k1⟩
    cases hk : s'.okay with
    | false => rfl
    | true => rw [hk, hs.1] at k2; simp at k2

/-- A list after which the line is acceptable. -/
theorem list_okay (hl : lastIdx g < g.length) {fuel : Nat} {ls : List (List UInt8)} {s : AState} {q : AState × List (List UInt8)} (hs : coresOf s.grid = coresOf g)
    (h : doList cfg (fileArgs cfg fuel) ls false s = ok q) : coresOf q.1.grid = coresOf g ∧ (q.1.okay = true → s.okay = true) := by
  have := tList_spec (v := ⟨[], []⟩) (cfg := cfg) hl (fun path s hs => tFile_spec hl fuel path s hs) ls false 0 hs (fun h => absurd h (by omega))
  rw [h] at this
  generalize tList ⟨[], []⟩ cfg (tFile ⟨[], []⟩ cfg fuel) ls false 0 s = T at this
  cases this with
  | ok k1 k2 k3 k4 => exact ⟨k1, fun h => ((k2 rfl).mp h).1⟩

theorem iLists_back {g0 : List AEntry} (hl : lastIdx g < g.length) (hc0 : coresOf g0 = coresOf g) (hadj : NoAdjacent g) (hx : XorInside g)
    {fuel : Nat} {argv0 : List UInt8} {args env : List (List UInt8)} {stdin : List UInt8} {fds : Nat} {r : AResult} {t : List UInt8}
    (h : iProcessLists m cfg fuel g0 argv0 args env stdin fds = ok (.back r t)) :
    processLists cfg fuel g0 argv0 args env stdin fds = ok r ∧ r.noError = true ∧ t = [] := by
  have hf : InFiles cfg (fun _ => True) := fun _ _ _ _ _ => trivial
  have any : ∀ (ls : List (List UInt8)), ∀ a ∈ ls, (fun _ : List UInt8 => True) a := fun _ _ _ => trivial
  unfold iProcessLists at h
  dsimp only at h
  rcases goOn_ok.mp h with ⟨r1, t1, e1, h1, h, he⟩ | ⟨_, _, _, he⟩
  swap
  · cases he
  rcases goOn_ok.mp h with ⟨r2, t2, e2, h2, h, he2⟩ | ⟨_, _, _, he2⟩
  swap
  · rw [he2] at he; cases he
  rcases goOn_ok.mp h with ⟨r3, t3, e3, h3, h, he3⟩ | ⟨_, _, _, he3⟩
  swap
  · rw [he3] at he2; rw [he2] at he; cases he
  obtain ⟨k1, k2, k3⟩ := list_back hl hf (any _) ⟨hc0, any _⟩ h1
  obtain ⟨l1, l2, l3⟩ := list_back hl hf (any _) k1 h2
  obtain ⟨n1, n2, n3⟩ := list_back hl hf (any _) l1 h3
  rw [bind_eq_ok] at h; obtain ⟨bm, hm, h⟩ := h
  rw [bind_eq_ok] at h; obtain ⟨bx, hxo, h⟩ := h
  rw [bind_eq_ok] at h; obtain ⟨tm, htm, h⟩ := h
  rw [bind_eq_ok] at h; obtain ⟨tx, htx, h⟩ := h
  split at h
  swap
  · rw [bind_eq_ok] at h
    obtain ⟨u, -, h⟩ := h
    cases h
    subst he3 he2
    cases he
  rename_i hcond
  cases h
  subst he3 he2
  cases he
  have hproc : processLists cfg fuel g0 argv0 args env stdin fds = ok ⟨true, r3.1.grid, argv0 :: r2.2, r3.1.opens⟩ := by
    unfold processLists
    dsimp only
    rw [k3, ok_bind, l3, ok_bind, n3, ok_bind, hm, ok_bind, hxo, ok_bind, hcond]
  refine ⟨hproc, rfl, ?_⟩
  obtain ⟨t', ht', hiff, -⟩ := tProcessLists_spec (v := m.voice) hl hc0 hadj hx hproc
  have := hiff.mp rfl
  subst this
  unfold tProcessLists at ht'
  dsimp only at ht'
  rw [k2, ok_bind] at ht'
  dsimp only at ht'
  rw [l2, ok_bind] at ht'
  dsimp only at ht'
  rw [n2, ok_bind] at ht'
  dsimp only at ht'
  rw [hm, ok_bind, hxo, ok_bind, htm, ok_bind, htx, ok_bind] at ht'
  have := congrArg Prod.snd (Outcome.ok.inj ht')
  simp only [List.append_eq_nil_iff] at this
  simp [this]

theorem iLists_exit {g0 : List AEntry} (hl : lastIdx g < g.length) (hc0 : coresOf g0 = coresOf g) (hadj : NoAdjacent g) (hx : XorInside g)
    {fuel : Nat} {argv0 : List UInt8} {args env : List (List UInt8)} {stdin : List UInt8} {fds : Nat} (hw : Words cfg W args env stdin) {c : Nat} {t : List UInt8}
    (h : iProcessLists m cfg fuel g0 argv0 args env stdin fds = ok (.exit c t)) :
    (c = 0 ∧ ∃ a k p u, W a ∧ Asks cfg g a k ∧ Answers m g k u ∧ Complaints m.voice cfg g p ∧ t = p ++ u) ∨
    (c = m.errCode ∧ (∀ r, processLists cfg fuel g0 argv0 args env stdin fds = ok r → r.noError = false) ∧
      ((∃ p path, Complaints m.voice cfg g p ∧ path ≠ ascii "-" ∧ t = p ++ tellFile m.voice path) ∨
       ∃ r p u, processLists cfg fuel g0 argv0 args env stdin fds = ok r ∧ p ≠ [] ∧ Explains m.voice cfg g r.grid p ∧
         doUsage m.voice.prog (withTexts r.grid m.texts) m.errType = ok u ∧ t = p ++ u)) := by
  have hf := hw.files
  -- a line that was refused in one of its lists is refused
  have last : ∀ {s3 : AState} {bm bx w : Bool}, s3.okay = false → (s3.okay && bm && w && bx) = false := by
    intro s3 bm bx w h
    simp [h]
  have hs0 : KeptFrom g W ⟨g0, [], args.length + 1 + env.length, 0, true, stdin, fds, 0⟩ := ⟨hc0, hw.stdin⟩
  have refuse3 : ∀ (q2 : AState), Refused g q2 → ∀ {q3}, doList cfg (fileArgs cfg fuel) (if cfg.processEnv && cfg.envAfter then env else []) false q2 = ok q3 →
      q3.1.okay = false := fun q2 h2 q3 h3 => (refused_list hl h2 h3).1
  -- from the list on in which the file could not be opened
  unfold iProcessLists at h
  dsimp only at h
  rcases goOn_ok.mp h with ⟨r1, t1, e1, h1, h, he⟩ | ⟨c1, t1, h1, he⟩
  swap
  · cases he
    rcases list_exit hl hf hw.before hs0 h1 with h | ⟨h2, h3, h4⟩
    · exact .inl h
    · refine .inr ⟨h2, fun r hr => ?_, .inl h4⟩
      unfold processLists at hr
      dsimp only at hr
      rw [bind_eq_ok] at hr; obtain ⟨q1, a1, hr⟩ := hr
      rw [bind_eq_ok] at hr; obtain ⟨q2, a2, hr⟩ := hr
      rw [bind_eq_ok] at hr; obtain ⟨q3, a3, hr⟩ := hr
      rw [bind_eq_ok] at hr; obtain ⟨bm, -, hr⟩ := hr
      rw [bind_eq_ok] at hr; obtain ⟨bx, -, hr⟩ := hr
      cases hr
      exact last (refuse3 _ (refused_list hl (h3 _ a1) a2) a3)
  obtain ⟨k1, k2, k3⟩ := list_back hl hf hw.before hs0 h1
  rcases goOn_ok.mp h with ⟨r2, t2, e2, h2, h, he2⟩ | ⟨c2, t2, h2, he2⟩
  swap
  · have c1 := (list_modes (m := m) hl hf (fuel := fuel) _ hw.before hs0).2
    rw [k2, k3] at c1
    have hc1 : Complaints m.voice cfg g t1 := by cases c1 with | ok _ _ _ h => exact h
    subst he2
    cases he
    rcases list_exit hl hf hw.args k1 h2 with ⟨b1, a, k, p, u, b2, b3, b4, b5, b6⟩ | ⟨b1, b2, p, path, b3, b4, b5⟩
    · exact .inl ⟨b1, a, k, t1 ++ p, u, b2, b3, b4, hc1.append b5, by rw [b6, List.append_assoc]⟩
    · refine .inr ⟨b1, fun r hr => ?_, .inl ⟨t1 ++ p, path, hc1.append b3, b4, by rw [b5, List.append_assoc]⟩⟩
      unfold processLists at hr
      dsimp only at hr
      rw [k3, ok_bind] at hr
      rw [bind_eq_ok] at hr; obtain ⟨q2, a2, hr⟩ := hr
      rw [bind_eq_ok] at hr; obtain ⟨q3, a3, hr⟩ := hr
      rw [bind_eq_ok] at hr; obtain ⟨bm, -, hr⟩ := hr
      rw [bind_eq_ok] at hr; obtain ⟨bx, -, hr⟩ := hr
      cases hr
      exact last (refuse3 _ (b2 _ a2) a3)
  obtain ⟨l1, l2, l3⟩ := list_back hl hf hw.args k1 h2
  have c1 := (list_modes (m := m) hl hf (fuel := fuel) _ hw.before hs0).2
  rw [k2, k3] at c1
  have hc1 : Complaints m.voice cfg g t1 := by cases c1 with | ok _ _ _ h => exact h
  have c2 := (list_modes (m := m) hl hf (fuel := fuel) _ hw.args k1).2
  rw [l2, l3] at c2
  have hc2 : Complaints m.voice cfg g t2 := by cases c2 with | ok _ _ _ h => exact h
  rcases goOn_ok.mp h with ⟨r3, t3, e3, h3, h, he3⟩ | ⟨c3, t3, h3, he3⟩
  swap
  · subst he3 he2
    cases he
    rcases list_exit hl hf hw.after l1 h3 with ⟨b1, a, k, p, u, b2, b3, b4, b5, b6⟩ | ⟨b1, b2, p, path, b3, b4, b5⟩
    · exact .inl ⟨b1, a, k, t1 ++ (t2 ++ p), u, b2, b3, b4, hc1.append (hc2.append b5), by rw [b6]; simp only [List.append_assoc]⟩
    · refine .inr ⟨b1, fun r hr => ?_, .inl ⟨t1 ++ (t2 ++ p), path, hc1.append (hc2.append b3), b4, by rw [b5]; simp only [List.append_assoc]⟩⟩
      unfold processLists at hr
      dsimp only at hr
      rw [k3, ok_bind, l3, ok_bind] at hr
      rw [bind_eq_ok] at hr; obtain ⟨q3, a3, hr⟩ := hr
      rw [bind_eq_ok] at hr; obtain ⟨bm, -, hr⟩ := hr
      rw [bind_eq_ok] at hr; obtain ⟨bx, -, hr⟩ := hr
      cases hr
      exact last (b2 _ a3).1
  obtain ⟨n1, n2, n3⟩ := list_back hl hf hw.after l1 h3
  rw [bind_eq_ok] at h; obtain ⟨bm, hm, h⟩ := h
  rw [bind_eq_ok] at h; obtain ⟨bx, hxo, h⟩ := h
  rw [bind_eq_ok] at h; obtain ⟨tm, htm, h⟩ := h
  rw [bind_eq_ok] at h; obtain ⟨tx, htx, h⟩ := h
  split at h
  · cases h
    subst he3 he2
    cases he
  rename_i hcond
  rw [bind_eq_ok] at h
  obtain ⟨u, hu, h⟩ := h
  cases h
  subst he3 he2
  cases he
  have hcf : (r3.1.okay && bm && !decide (r3.1.queue.length > r3.1.tail) && bx) = false := by
    cases hb : (r3.1.okay && bm && !decide (r3.1.queue.length > r3.1.tail) && bx) with
    | false => rfl
    | true => exact absurd hb hcond
  have hproc : processLists cfg fuel g0 argv0 args env stdin fds = ok ⟨false, r3.1.grid, argv0 :: r2.2, r3.1.opens⟩ := by
    unfold processLists
    dsimp only
    rw [k3, ok_bind, l3, ok_bind, n3, ok_bind, hm, ok_bind, hxo, ok_bind, hcf]
  obtain ⟨t', ht', hiff, hex⟩ := tProcessLists_spec (v := m.voice) hl hc0 hadj hx hproc
  have hne : t' ≠ [] := fun h => by
    have := hiff.mpr h
    cases this
  unfold tProcessLists at ht'
  dsimp only at ht'
  rw [k2, ok_bind] at ht'
  dsimp only at ht'
  rw [l2, ok_bind] at ht'
  dsimp only at ht'
  rw [n2, ok_bind] at ht'
  dsimp only at ht'
  rw [hm, ok_bind, hxo, ok_bind, htm, ok_bind, htx, ok_bind] at ht'
  have ht2 := congrArg Prod.snd (Outcome.ok.inj ht')
  dsimp only at ht2
  refine .inr ⟨rfl, fun r hr => ?_, .inr ⟨_, t', u, hproc, hne, hex, hu, ?_⟩⟩
  · rw [hproc] at hr
    cases hr
    rfl
  · rw [← ht2]
    simp only [List.append_assoc]

theorem iLists_quiet {g0 : List AEntry} (hl : lastIdx g < g.length) (hc0 : coresOf g0 = coresOf g) (hadj : NoAdjacent g) (hx : XorInside g)
    {fuel : Nat} {argv0 : List UInt8} {args env : List (List UInt8)} {stdin : List UInt8} {fds : Nat} (hw : Words cfg W args env stdin)
    (hno : ∀ a k, W a → ¬ Asks cfg g a k) {r : AResult} (h : processLists cfg fuel g0 argv0 args env stdin fds = ok r) (hok : r.noError = true) :
    iProcessLists m cfg fuel g0 argv0 args env stdin fds = ok (.back r []) := by
  have hf := hw.files
  have hs0 : KeptFrom g W ⟨g0, [], args.length + 1 + env.length, 0, true, stdin, fds, 0⟩ := ⟨hc0, hw.stdin⟩
  obtain ⟨t', ht', hiff, -⟩ := tProcessLists_spec (v := m.voice) hl hc0 hadj hx h
  have h0 := hiff.mp hok
  subst h0
  unfold tProcessLists at ht'
  unfold processLists at h
  unfold iProcessLists
  dsimp only at h ht' ⊢
  rw [bind_eq_ok] at h; obtain ⟨q1, a1, h⟩ := h
  rw [bind_eq_ok] at h; obtain ⟨q2, a2, h⟩ := h
  rw [bind_eq_ok] at h; obtain ⟨q3, a3, h⟩ := h
  rw [bind_eq_ok] at h; obtain ⟨bm, hm, h⟩ := h
  rw [bind_eq_ok] at h; obtain ⟨bx, hxo, h⟩ := h
  cases h
  dsimp only at hok
  have o3 : q3.1.okay = true := by
    simp only [Bool.and_eq_true] at hok
    exact hok.1.1.1
  obtain ⟨c1, o1⟩ := list_okay hl hs0.1 a1
  obtain ⟨c2, o2⟩ := list_okay hl c1 a2
  obtain ⟨c3, o3'⟩ := list_okay hl c2 a3
  obtain ⟨k1, -, i1⟩ := list_quiet (m := m) hl hf hno hw.before hs0 a1 (o2 (o3' o3))
  obtain ⟨k2, -, i2⟩ := list_quiet (m := m) hl hf hno hw.args k1 a2 (o3' o3)
  obtain ⟨k3, -, i3⟩ := list_quiet (m := m) hl hf hno hw.after k2 a3 o3
  rw [(list_back hl hf hw.before hs0 i1).2.1, ok_bind] at ht'
  dsimp only at ht'
  rw [(list_back hl hf hw.args k1 i2).2.1, ok_bind] at ht'
  dsimp only at ht'
  rw [(list_back hl hf hw.after k2 i3).2.1, ok_bind] at ht'
  dsimp only at ht'
  rw [hm, ok_bind, hxo, ok_bind] at ht'
  rw [bind_eq_ok] at ht'; obtain ⟨tm, htm, ht'⟩ := ht'
  rw [bind_eq_ok] at ht'; obtain ⟨tx, htx, ht'⟩ := ht'
  have ht2 := congrArg Prod.snd (Outcome.ok.inj ht')
  dsimp only at ht2
  simp only [List.append_eq_nil_iff] at ht2
  rw [i1, goOn_back, i2, goOn_back, i3, goOn_back, hm, ok_bind, hxo, ok_bind, htm, ok_bind, htx, ok_bind, if_pos hok, hok]
  simp [Ends.after, ht2]

/-! ### The theorems -/

/-- The words of a line. -/
theorem words_of {argv0 : List UInt8} {args : List (List UInt8)} {stdin : List UInt8} :
    Words cfg (LineWord cfg (argv0 :: args) stdin) args (envArgs cfg argv0) stdin :=
  ⟨fun path text h a ha => .inr (.inr (.inr ⟨path, text, h, ha⟩)), fun a ha => .inl ha, fun he a ha => .inr (.inl ⟨he, argv0, rfl, ha⟩),
   fun a ha => .inr (.inr (.inl ha))⟩

/-- **C126.**  If `argv_process` returns in its default mode, it has accepted the line, it has written nothing, and the variables are as in
the other mode. -/
theorem C126_returns {m : Manners} {cfg : ACfg} {fuel : Nat} {g : List AEntry} {argv : List (List UInt8)} {stdin : List UInt8} {fds : Nat} {r : AResult}
    {t : List UInt8} (h : iProcess m cfg fuel g argv stdin fds = ok (.back r t)) :
    argvProcess cfg fuel g argv stdin fds = ok r ∧ r.noError = true ∧ t = [] := by
  unfold iProcess at h
  unfold argvProcess
  match argv with
  | [] => cases h
  | argv0 :: args =>
    dsimp only at h ⊢
    rw [bind_eq_ok] at h
    obtain ⟨p, hp, h⟩ := h
    rw [hp, ok_bind]
    cases p with
    | none => cases h
    | some g0 =>
      obtain ⟨hc, hl, -⟩ := preprocess_core hp
      exact iLists_back hl hc (preprocess_adj hp) (preprocess_xor hp) h

/-- **C126.**  A line that is accepted, and in which nobody asks for help, is processed in the default mode as in the other. -/
theorem C126_accepted {m : Manners} {cfg : ACfg} {fuel : Nat} {g : List AEntry} {argv : List (List UInt8)} {stdin : List UInt8} {fds : Nat} {r : AResult}
    (h : argvProcess cfg fuel g argv stdin fds = ok r) (hok : r.noError = true) (hno : ∀ a k, LineWord cfg argv stdin a → ¬ Asks cfg g a k) :
    iProcess m cfg fuel g argv stdin fds = ok (.back r []) := by
  unfold argvProcess at h
  unfold iProcess
  match argv with
  | [] => cases h
  | argv0 :: args =>
    dsimp only at h ⊢
    rw [bind_eq_ok] at h
    obtain ⟨p, hp, h⟩ := h
    rw [hp, ok_bind]
    cases p with
    | none => cases h; cases hok
    | some g0 =>
      obtain ⟨hc, hl, -⟩ := preprocess_core hp
      exact iLists_quiet hl hc (preprocess_adj hp) (preprocess_xor hp) words_of hno h hok

/-- **C126.**  If the program is ended, then either with 0, after the answer to an argument that asks for something; or with
`argv_error_code`, after an explanation — what is wrong with the array, that a file of arguments cannot be opened, or (in front of the
usage message) what is wrong with the line — and the other mode refuses the line. -/
theorem C126_exits {m : Manners} {cfg : ACfg} {fuel : Nat} {g : List AEntry} {argv : List (List UInt8)} {stdin : List UInt8} {fds : Nat} {c : Nat}
    {t : List UInt8} (h : iProcess m cfg fuel g argv stdin fds = ok (.exit c t)) :
    (c = 0 ∧ ∃ a k p u, LineWord cfg argv stdin a ∧ Asks cfg g a k ∧ Answers m g k u ∧ Complaints m.voice cfg g p ∧ t = p ++ u) ∨
    (c = m.errCode ∧ (∀ r, argvProcess cfg fuel g argv stdin fds = ok r → r.noError = false) ∧
      (ArrayFault m.voice g t ∨
       (∃ p path, Complaints m.voice cfg g p ∧ path ≠ ascii "-" ∧
         t = p ++ m.voice.prog ++ ascii ": could not load command-line arguments from: " ++ path ++ [10]) ∨
       ∃ r p u, argvProcess cfg fuel g argv stdin fds = ok r ∧ p ≠ [] ∧ Explains m.voice cfg g r.grid p ∧
         doUsage m.voice.prog (withTexts r.grid m.texts) m.errType = ok u ∧ t = p ++ u)) := by
  unfold iProcess at h
  unfold argvProcess
  match argv with
  | [] => cases h
  | argv0 :: args =>
    dsimp only at h ⊢
    rw [bind_eq_ok] at h
    obtain ⟨p, hp, h⟩ := h
    rw [hp]
    simp only [ok_bind]
    cases p with
    | none =>
      cases h
      exact .inr ⟨rfl, fun r hr => (by cases hr; rfl), .inl (tellPre_none hp)⟩
    | some g0 =>
      obtain ⟨hc, hl, -⟩ := preprocess_core hp
      rcases iLists_exit hl hc (preprocess_adj hp) (preprocess_xor hp) words_of h with h | ⟨h1, h2, ⟨p, path, h3, h4, h5⟩ | h3⟩
      · exact .inl h
      · refine .inr ⟨h1, h2, .inr (.inl ⟨p, path, h3, h4, ?_⟩)⟩
        rw [h5]
        unfold tellFile
        simp only [List.append_assoc]
      · exact .inr ⟨h1, h2, .inr (.inr h3)⟩

/-! ### Who asks is answered -/

theorem means_some {w : List UInt8} {k : Request} (h : Means w k) :
    w.isPrefixOf (ascii "usage") ∨ w.isPrefixOf (ascii "help") ∨ w.isPrefixOf (ascii "usage-short") ∨
      w.isPrefixOf (ascii "usage-long") ∨ w.isPrefixOf (ascii "usage-all") ∨ w.isPrefixOf (ascii "version") ∨ w.isPrefixOf (ascii "argv-display") := by
  obtain ⟨i, n, h1, h2, -⟩ := h
  have hm := List.mem_of_getElem? h1
  have h2 := List.isPrefixOf_iff_prefix.mpr h2
  simp only [requests, List.mem_cons, Prod.mk.injEq, List.not_mem_nil, or_false] at hm
  rcases hm with ⟨rfl, -⟩ | ⟨rfl, -⟩ | ⟨rfl, -⟩ | ⟨rfl, -⟩ | ⟨rfl, -⟩ | ⟨rfl, -⟩ | ⟨rfl, -⟩ <;> simp [h2]

theorem exit_only {α : Type} {x : Outcome (List UInt8)} {s : α} {t : List UInt8} : (x >>= fun t => ok (.exit 0 t)) ≠ ok (Ends.back s t) := by
  intro h
  rw [bind_eq_ok] at h
  obtain ⟨y, -, h⟩ := h
  cases h

theorem iLong_asked (IK : List UInt8 → AState → Outcome (Ends AState)) {w a : List UInt8} {k : Request} (ha : a.take 2 = ascii "--")
    (hp : punch cfg a = ascii "--" ++ w) (h0 : w ≠ []) (hn : ∀ i e l, EntryIs g i e → e.long = some l → ¬ w <+: l) (hf : ¬ w <+: ascii "argv-file")
    (hk : Means w k) {s : AState} (hl : lastIdx g < g.length) (hc : coresOf s.grid = coresOf g) {s' : AState} {t : List UInt8} :
    iLong m cfg IK a s ≠ ok (.back s' t) := by
  have hlen : s.grid.length = g.length := by simpa [coresOf] using congrArg List.length hc
  have hls : lastIdx s.grid < s.grid.length := by rw [lastIdx_core hc, hlen]; exact hl
  unfold iLong
  dsimp only
  rw [hp, show (ascii "--" ++ w).drop 2 = w from rfl, if_neg h0]
  have hno : longLoop w s.grid 0 none = ok .no := by
    refine longLoop_none 0 none hls fun j hj e he => ?_
    obtain ⟨e0, g1, g2⟩ := EntryIs.core hc ⟨hj, he⟩
    unfold longMatches
    cases hlo : e.long with
    | none => rfl
    | some l =>
      have := hn j e0 l g1 (by rw [(core_fields g2).2.1]; exact hlo)
      cases hb : w.isPrefixOf l with
      | false => simp [hb]
      | true => exact absurd (List.isPrefixOf_iff_prefix.mp hb) this
  rw [hno, ok_bind]
  dsimp only
  rw [if_neg (fun h => hf (List.isPrefixOf_iff_prefix.mp h))]
  cases hx : answerWord m.real m.voice.prog m.usageType m.help m.version (withTexts s.grid m.texts) m.buf w with
  | none => exact absurd (means_some hk) (answerWord_means.2.mp hx)
  | some x => exact exit_only

theorem iCluster_asked (hl : lastIdx g < g.length) (hn : ∀ i e, EntryIs g i e → e.short ≠ 63) {full : List UInt8} (hfull : (63 : UInt8) ∈ full) (close : Option (List UInt8)) :
    ∀ {cs : List UInt8} {first : Bool} {s s' : AState} {t : List UInt8}, (63 : UInt8) ∈ cs → coresOf s.grid = coresOf g →
    iCluster m cfg full close cs first s ≠ ok (.back s' t)
  | [], _, _, _, _, h, _ => by cases h
  | c :: cs, first, s, s', t, h, hc => by
    intro hi
    have hlen : s.grid.length = g.length := by simpa [coresOf] using congrArg List.length hc
    have hls : lastIdx s.grid < s.grid.length := by rw [lastIdx_core hc, hlen]; exact hl
    have hnum : ¬ (isNumber full = true) := by
      intro h
      unfold isNumber at h
      rw [Bool.and_eq_true] at h
      have := List.all_eq_true.mp h.2 63 hfull
      exact absurd this (by decide)
    rw [iCluster.eq_def] at hi
    dsimp only at hi
    rcases scanGrid_total (p := fun e => decide (e.short = c)) 0 hls with ⟨k, e, h1, h2, h3, h4, -⟩ | ⟨h1, h2⟩
    · rw [h1, ok_bind] at hi
      dsimp only at hi
      have hc63 : c ≠ 63 := by
        rintro rfl
        obtain ⟨e0, g1, g2⟩ := EntryIs.core hc ⟨h2, h3⟩
        have := of_decide_eq_true h4
        exact hn k e0 g1 (by rw [(core_fields g2).1]; exact this)
      rcases goOn_ok.mp hi with ⟨a, t1, e', k1, k2, k3⟩ | ⟨_, _, _, k3⟩
      · unfold returning at k1
        rw [bind_eq_ok] at k1
        obtain ⟨q, hq, k1⟩ := k1
        cases k1
        cases e' with
        | back s2 t2 =>
          refine iCluster_asked hl hn hfull close ?_ ?_ k2
          · simpa [Ne.symm hc63] using h
          · exact (tArg_spec (v := m.voice) (by rw [← lastIdx_core hc]; omega) close hc).cores hq
        | exit _ _ => cases k3
      · cases k3
    · rw [h1, ok_bind] at hi
      dsimp only at hi
      split at hi
      · exact exit_only hi
      · rename_i h63
        rw [if_neg (fun h => hnum h.2.1)] at hi
        rcases goOn_ok.mp hi with ⟨a, t1, e', k1, k2, k3⟩ | ⟨_, _, _, k3⟩
        · cases k1
          cases e' with
          | back s2 t2 =>
            refine iCluster_asked hl hn hfull close (s := { s with okay := false }) ?_ hc k2
            simpa [Ne.symm h63] using h
          | exit _ _ => cases k3
        · cases k3

theorem iList_asked (hl : lastIdx g < g.length) {fuel : Nat} {a : List UInt8} {k : Request} (ha : Asks cfg g a k) {post : List (List UInt8)} :
    ∀ {pre : List (List UInt8)} {n : Nat} {s : AState} {q : AState × List (List UInt8)} {t : List UInt8}, ascii "--" ∉ pre → coresOf s.grid = coresOf g →
    iList m cfg (iFile m cfg fuel) (pre ++ a :: post) false n s ≠ ok (.back q t)
  | [], n, s, q, t, hp, hc => by
    intro h
    have hna : a ≠ ascii "--" := by
      rintro rfl
      cases ha with
      | long h1 h2 h3 =>
        have : punch cfg (ascii "--") = ascii "--" := by unfold punch; split <;> rfl
        rw [this] at h2
        exact h3 (by simpa using h2)
      | short h1 h2 => exact h2 rfl
    rw [List.nil_append, iList, if_neg (by simp [hna]), if_neg (by simp [hna])] at h
    cases ha with
    | long h1 h2 h3 h4 h5 h6 =>
      rw [if_pos ⟨rfl, h1⟩] at h
      rcases goOn_ok.mp h with ⟨a', t1, e', k1, k2, k3⟩ | ⟨_, _, _, k3⟩
      · exact iLong_asked _ h1 h2 h3 h4 h5 h6 hl hc k1
      · cases k3
    | short h1 h2 h3 h4 h5 =>
      rename_i w
      have hlen : a.length ≠ 1 := by
        intro hlen
        match a, hlen with
        | [c], _ =>
          have : [c] = ascii "-" := h1
          rw [this] at h3
          have e : punch cfg (ascii "-") = ascii "-" := by unfold punch; split <;> rfl
          rw [e] at h3
          have : w = [] := by simpa using h3
          rw [this] at h4
          cases h4
      rw [if_neg (by simp [h2]), if_pos ⟨rfl, h1, hlen⟩] at h
      rcases goOn_ok.mp h with ⟨a', t1, e', k1, k2, k3⟩ | ⟨_, _, _, k3⟩
      · unfold iShort at k1
        dsimp only at k1
        rw [h3, show (ascii "-" ++ w).drop 1 = w from rfl, if_neg (by rintro rfl; cases h4)] at k1
        exact iCluster_asked hl h5 (by simp [h4]) _ h4 hc k1
      · cases k3
  | x :: pre, n, s, q, t, hp, hc => by
    intro h
    have hx : x ≠ ascii "--" := by rintro rfl; exact hp (by simp)
    have hp' : ascii "--" ∉ pre := fun h => hp (by simp [h])
    have hkept : KeptFrom g (fun _ => True) s := ⟨hc, fun _ _ => trivial⟩
    have hK : ∀ path s, KeptFrom g (fun _ => True) s → Parted m cfg g (fun _ => True) (KeptFrom g (fun _ => True)) (Refused g)
        (iFile m cfg fuel path s) (tFile m.voice cfg fuel path s) := fun path s hs => parted_file hl (fun _ _ _ _ _ => trivial) fuel path s hs
    have back : ∀ {α : Type} {Q bad : α → Prop} {I : Outcome (Ends α)} {T : Outcome (α × List UInt8)} {b : α} {u : List UInt8},
        Parted m cfg g (fun _ => True) Q bad I T → I = ok (.back b u) → Q b := by
      intro α Q bad I T b u hP hI
      cases hP with
      | back hq _ => cases hI; exact hq
      | answer _ _ _ _ => cases hI
      | noFile _ _ _ => cases hI
      | failed _ _ hx => exact absurd hI (hx _)
      | err r => cases hI
      | ub => cases hI
      | hang => cases hI
      | abort => cases hI
    have step : ∀ {s1 : AState} {k : Nat} {w : List UInt8} {e : Ends (AState × List (List UInt8))} {u : List UInt8}, coresOf s1.grid = coresOf g →
        (goOn (iList m cfg (iFile m cfg fuel) (pre ++ a :: post) false k s1) fun r => ok (.back (r.1, w :: r.2) [])) = ok e → Ends.back q t = e.after u → False := by
      intro s1 k w e u hs1 hi he
      rcases goOn_ok.mp hi with ⟨a', t1, e', k1, k2, k3⟩ | ⟨_, _, _, k3⟩
      · exact iList_asked hl ha hp' hs1 k1
      · subst k3
        cases he
    rw [List.cons_append, iList, if_neg (by simp [hx]), if_neg (by simp [hx])] at h
    split at h
    · rename_i h2
      rcases goOn_ok.mp h with ⟨s1, t1, e', k1, k2, k3⟩ | ⟨_, _, _, k3⟩
      · exact step (back (parted_long hl hK h2.2 trivial hkept) k1).1 k2 k3
      · cases k3
    · rename_i h2
      split at h
      · rename_i h3
        rcases goOn_ok.mp h with ⟨s1, t1, e', k1, k2, k3⟩ | ⟨_, _, _, k3⟩
        · exact step (back (parted_short (W := fun _ => True) hl h3.2.1 (fun h => h2 ⟨h3.1, h⟩) trivial hkept) k1).1 k2 k3
        · cases k3
      · rcases goOn_ok.mp h with ⟨s1, t1, e', k1, k2, k3⟩ | ⟨_, _, _, k3⟩
        · exact step (back (parted_value hK x hkept) k1).1 k2 k3
        · cases k3

/-- **C126.**  A line with an argument (in front of `--`) that asks for help is not processed: the function does not return. -/
theorem C126_asked {m : Manners} {cfg : ACfg} {fuel : Nat} {g : List AEntry} {argv0 : List UInt8} {pre post : List (List UInt8)} {a : List UInt8} {k : Request}
    (ha : Asks cfg g a k) (hp : ascii "--" ∉ pre) {stdin : List UInt8} {fds : Nat} {r : AResult} {t : List UInt8} :
    iProcess m cfg fuel g (argv0 :: pre ++ a :: post) stdin fds ≠ ok (.back r t) := by
  intro h
  unfold iProcess at h
  rw [List.cons_append] at h
  dsimp only at h
  rw [bind_eq_ok] at h
  obtain ⟨p, hp', h⟩ := h
  cases p with
  | none => cases h
  | some g0 =>
    obtain ⟨hc, hl, -⟩ := preprocess_core hp'
    dsimp only at h
    unfold iProcessLists at h
    dsimp only at h
    rcases goOn_ok.mp h with ⟨r1, t1, e1, h1, h, he⟩ | ⟨_, _, _, he⟩
    swap
    · cases he
    rcases goOn_ok.mp h with ⟨r2, t2, e2, h2, h, he2⟩ | ⟨_, _, _, he2⟩
    swap
    · rw [he2] at he; cases he
    have := (list_back (W := fun _ => True) hl (fun _ _ _ _ _ => trivial) (fun _ _ => trivial) ⟨hc, fun _ _ => trivial⟩ h1).1
    exact iList_asked hl ha hp this.1 h2

/-! ### Where the text goes -/

/-- What was written. -/
def Spec.textOf {α : Type} : Ends α → List UInt8
  | .back _ t => t
  | .exit _ t => t

/-- The same without what was written. -/
def Spec.silent {α : Type} : Ends α → Ends α
  | .back a _ => .back a []
  | .exit c _ => .exit c []

/-- **C126.**  The first call of `argv_process` writes to standard error, unless another stream (or none) was chosen; what it does besides
does not depend on the stream. -/
theorem C126_stream {m : Manners} {cfg : ACfg} {fuel : Nat} {g : List AEntry} {argv : List (List UInt8)} {stdin : List UInt8} {fds : Nat} {e : Ends AResult}
    (h : iProcess m cfg fuel g argv stdin fds = ok e) :
    processOn false .initial m cfg fuel g argv stdin fds = ok e ∧ processOn false .stream m cfg fuel g argv stdin fds = ok e ∧
    processOn false .null m cfg fuel g argv stdin fds = ok (silent e) := by
  unfold processOn processNoEnvOn
  rw [h]
  simp only [ok_bind]
  cases e with
  | back r t =>
    refine ⟨?_, ?_, ?_⟩
    · by_cases ht : t = []
      · subst ht; rfl
      · simp [Ends.to, writeTo, argvStartup, silent, ht]
    · by_cases ht : t = []
      · subst ht; rfl
      · simp [Ends.to, writeTo, argvStartup, silent, ht]
    · by_cases ht : t = []
      · subst ht; rfl
      · simp [Ends.to, writeTo, argvStartup, silent, ht]
  | exit c t =>
    refine ⟨?_, ?_, ?_⟩
    · by_cases ht : t = []
      · subst ht; rfl
      · simp [Ends.to, writeTo, argvStartup, silent, ht]
    · by_cases ht : t = []
      · subst ht; rfl
      · simp [Ends.to, writeTo, argvStartup, silent, ht]
    · by_cases ht : t = []
      · subst ht; rfl
      · simp [Ends.to, writeTo, argvStartup, silent, ht]

/-- **C126.**  `argv_process_no_env`, if it is called first, writes to the address 1 whenever it has something to say. -/
theorem C126_first_violated {m : Manners} {cfg : ACfg} {fuel : Nat} {g : List AEntry} {argv : List (List UInt8)} {stdin : List UInt8} {fds : Nat}
    {e : Ends AResult} (h : iProcess m cfg fuel g argv stdin fds = ok e) (ht : textOf e ≠ []) :
    processNoEnvOn .initial m cfg fuel g argv stdin fds = ub := by
  unfold processNoEnvOn
  rw [h, ok_bind]
  cases e with
  | back r t => simp [Ends.to, writeTo, show t ≠ [] from ht]
  | exit c t => simp [Ends.to, writeTo, show t ≠ [] from ht]

/-! ### Examples -/

/-- A program with the default settings. -/
def plainManners : Manners := ⟨tellVoice, 2, 2, 1, none, some (ascii "1.0"), [(none, none), (none, none), (none, none)], fun _ _ => [], []⟩

/-- An argument that asks for the version: no option of the array begins with it. -/
theorem version_asks : Asks argvCfg quickGrid (ascii "--vers") .version := by
  refine .long (w := ascii "vers") (by decide) (by decide) (by decide) (fun i e l h hl hp => ?_) (by decide) ⟨5, "version", rfl, by decide, ?_⟩
  · obtain ⟨h1, h2⟩ := h
    have hi : i < 1 := by
      have : lastIdx quickGrid = 1 := by decide
      omega
    have : i = 0 := by omega
    subst this
    cases h2
    cases hl
    revert hp
    decide
  · intro j n k hj hn
    have : j = 0 ∨ j = 1 ∨ j = 2 ∨ j = 3 ∨ j = 4 := by omega
    rcases this with rfl | rfl | rfl | rfl | rfl <;> cases hn <;> decide

example : iProcess plainManners argvCfg 1 quickGrid [ascii "prog", ascii "--quick", ascii "--vers", ascii "--nonsense"] [] 0 =
    ok (.exit 0 (ascii "prog: 1.0\n")) := by decide +kernel

example : (match iProcess plainManners argvCfg 1 quickGrid [ascii "prog", ascii "--nonsense"] [] 0 with
    | .ok (.exit 1 t) => (ascii "prog: usage problem, unknown long option '--nonsense'.\n").isPrefixOf t
    | _ => false) = true := by decide +kernel

example : (match iProcess plainManners argvCfg 1 quickGrid [ascii "prog", ascii "--quick"] [] 0 with
    | .ok (.back r []) => r.noError
    | _ => false) = true := by decide +kernel

example : processNoEnvOn .initial plainManners argvCfg 1 quickGrid [ascii "prog", ascii "--vers"] [] 0 = ub := by decide +kernel

/-- **C126.** What the messages are written from: the entries as they have become, each with its own label and comment. -/
theorem C126_texts (grid : List AEntry) (texts : List (Option (List UInt8) × Option (List UInt8))) (hl : grid.length = texts.length) :
    (withTexts grid texts).map (·.toAEntry) = grid ∧ (withTexts grid texts).map (fun e => (e.label, e.comment)) = texts := by
  unfold withTexts
  induction grid generalizing texts with
  | nil => cases texts with
    | nil => exact ⟨rfl, rfl⟩
    | cons => simp at hl
  | cons g gs ih => cases texts with
    | nil => simp at hl
    | cons t ts =>
      have := ih ts (by simpa using hl)
      simp [this]

example : ((withTexts [argvGrid[0]] [(some (ascii "file"), some (ascii "what to read"))]).map UEntry.label) = [some (ascii "file")] := by decide +kernel

end Wdns
