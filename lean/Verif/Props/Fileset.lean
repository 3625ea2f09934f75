import Verif.Spec.Fileset
import Mathlib.Data.List.Perm.Basic
import Mathlib.Data.List.Nodup
import Mathlib.Data.List.Induction
import Mathlib.Data.List.Sort

/-!
# C88 — a file set keeps exactly the listed files loaded

Every history of reloads of a file set (libmy/my_fileset.c): as long as no set file lists a file twice, the entries are the listed files that exist,
sorted; what is loaded is what is in the entries; nothing is unloaded twice or lost; files that stay are not touched.
-/

namespace Wdns
open Outcome

/-- No NUL in a string. -/
def NoNul (s : List UInt8) : Prop := ∀ c ∈ s, c ≠ 0

theorem cStrcmp_self : ∀ s : List UInt8, cStrcmp s s = 0
  | [] => rfl
  | _ :: s => by rw [cStrcmp, if_pos rfl, cStrcmp_self s]

theorem toNat_ne_zero {c : UInt8} (h : c ≠ 0) : 0 < c.toNat := by
  rcases Nat.eq_zero_or_pos c.toNat with h0 | h0
  · exact absurd (UInt8.toNat_inj.mp (by rw [h0]; rfl)) h
  · exact h0

theorem cStrcmp_zero : ∀ {a b : List UInt8}, NoNul a → NoNul b → cStrcmp a b = 0 → a = b
  | [], [], _, _, _ => rfl
  | [], b :: bs, _, hb, h => by
    have := toNat_ne_zero (hb b (by simp))
    rw [cStrcmp] at h; omega
  | a :: as, [], ha, _, h => by
    have := toNat_ne_zero (ha a (by simp))
    rw [cStrcmp] at h; omega
  | a :: as, b :: bs, ha, hb, h => by
    rw [cStrcmp] at h
    by_cases e : a = b
    · rw [if_pos e] at h
      rw [e, cStrcmp_zero (fun c hc => ha c (by simp [hc])) (fun c hc => hb c (by simp [hc])) h]
    · rw [if_neg e] at h
      exact absurd (UInt8.toNat_inj.mp (by omega)) e

theorem cStrcmp_before : ∀ {a b : List UInt8}, NoNul a → NoNul b → cStrcmp a b ≤ 0 → a ≠ b → Spec.StrBefore a b
  | [], [], _, _, _, h => absurd rfl h
  | [], b :: bs, _, _, _, _ => trivial
  | a :: as, [], ha, _, h, _ => by
    have := toNat_ne_zero (ha a (by simp))
    rw [cStrcmp] at h; omega
  | a :: as, b :: bs, ha, hb, h, hn => by
    rw [cStrcmp] at h
    by_cases e : a = b
    · rw [if_pos e] at h
      exact Or.inr ⟨e, cStrcmp_before (fun c hc => ha c (by simp [hc])) (fun c hc => hb c (by simp [hc])) h (fun h' => hn (by rw [e, h']))⟩
    · rw [if_neg e] at h
      have : a.toNat ≠ b.toNat := fun h' => e (UInt8.toNat_inj.mp h')
      exact Or.inl (by omega)

theorem fsName_eq (setdir line : List UInt8) : fsName setdir line = Spec.fsPath setdir line := by
  unfold fsName Spec.fsPath
  generalize line.takeWhile (· ≠ 0) = s
  dsimp only
  cases s using List.reverseRecOn with
  | nil => simp
  | append_singleton s c =>
    rw [← List.append_assoc, List.getLast?_concat, List.getLast?_concat, List.dropLast_concat, List.dropLast_concat]
    by_cases h : c = 10
    · simp [h]
    · simp [h]

theorem fsPath_noNul {setdir : List UInt8} (h : NoNul setdir) (line : List UInt8) : NoNul (Spec.fsPath setdir line) := by
  have hs : NoNul (line.takeWhile (· ≠ 0)) := by
    clear h
    induction line with
    | nil => intro c hc; simp at hc
    | cons x xs ih =>
      intro c hc
      rw [List.takeWhile_cons] at hc
      by_cases hx : x = 0
      · simp [hx] at hc
      · rw [if_pos (by simpa using hx), List.mem_cons] at hc
        rcases hc with hc | hc
        · rw [hc]; exact hx
        · exact ih c hc
  intro c hc
  unfold Spec.fsPath at hc
  dsimp only at hc
  simp only [List.mem_append, List.mem_singleton] at hc
  rcases hc with (hc | hc) | hc
  · exact h c hc
  · rw [hc]; decide
  · split at hc
    · exact hs c (List.dropLast_subset _ hc)
    · exact hs c hc

/-- The pair of an entry. -/
def FsEntry.pair (e : FsEntry) : List UInt8 × Nat := (e.fname, e.ptr)

/-- The old entries after the names `ps` have been seen. -/
def markKept (es : List FsEntry) (ps : List (List UInt8)) : List FsEntry := es.map fun e => { e with keep := decide (e.fname ∈ ps) }

theorem markKept_names (es : List FsEntry) (ps : List (List UInt8)) : (markKept es ps).map FsEntry.fname = es.map FsEntry.fname := by
  simp [markKept, Function.comp_def]

theorem sorted_names {R : List UInt8 → List UInt8 → Prop} {es fs : List FsEntry} (h : fs.map FsEntry.fname = es.map FsEntry.fname)
    (hs : es.Pairwise fun a b => R a.fname b.fname) : fs.Pairwise fun a b => R a.fname b.fname := by
  rw [← List.pairwise_map] at hs ⊢
  rw [h]; exact hs

theorem markKept_set {es : List FsEntry} (hn : (es.map FsEntry.fname).Nodup) {ps : List (List UInt8)} {i : Nat} {e : FsEntry} (he : es[i]? = some e) :
    (markKept es ps).set i { e with keep := true } = markKept es (ps ++ [e.fname]) := by
  apply List.ext_getElem?
  intro j
  rw [List.getElem?_set]
  unfold markKept
  rw [List.getElem?_map, List.getElem?_map, List.length_map]
  have hi : i < es.length := (List.getElem?_eq_some_iff.mp he).1
  by_cases hij : i = j
  · subst hij
    rw [if_pos rfl, if_pos hi, he]
    simp
  · rw [if_neg hij]
    cases hj : es[j]? with
    | none => rfl
    | some x =>
      have hx : x.fname ≠ e.fname := by
        intro hx
        have hjl := (List.getElem?_eq_some_iff.mp hj).1
        have h1 : (es.map FsEntry.fname)[i]? = (es.map FsEntry.fname)[j]? := by
          rw [List.getElem?_map, List.getElem?_map, he, hj]; simp [hx]
        exact hij ((List.getElem?_inj (by simpa using hi) hn).mp h1)
      simp [hx]

/-- The state of the loop after the names `ps`. -/
structure FsLoop (es : List FsEntry) (calls0 : List FsCall) (ps : List (List UInt8)) (st : List FsEntry × List FsEntry × List FsCall) : Prop where
  old : st.1 = markKept es ps
  names : st.2.1.map FsEntry.fname = ps
  unkept : ∀ x ∈ st.2.1, x.keep = false
  stay : ∀ x ∈ st.2.1, x.fname ∈ es.map FsEntry.fname → x.pair ∈ es.map FsEntry.pair
  calls : st.2.2 = calls0 ++ ((st.2.1.filter fun x => decide (x.fname ∉ es.map FsEntry.fname)).map fun x => FsCall.load x.fname x.ptr)

theorem fsLine_loop {lc : FsLibc} (hlc : lc.Ok) {setdir : List UInt8} (hd : NoNul setdir) {es : List FsEntry} {calls0 : List FsCall}
    (hs : es.Pairwise fun a b => cStrcmp a.fname b.fname ≤ 0) (hn : (es.map FsEntry.fname).Nodup) (hz : ∀ e ∈ es, NoNul e.fname)
    {ps : List (List UInt8)} {st : List FsEntry × List FsEntry × List FsCall} (h : FsLoop es calls0 ps st) (l : List UInt8 × Bool) :
    ∃ st', fsLine lc setdir l st = ok st' ∧ FsLoop es calls0 (ps ++ Spec.fsListed setdir [l]) st' := by
  obtain ⟨old, new, calls⟩ := st
  obtain ⟨h1, h2, h3, h4, h5⟩ := h
  dsimp only at h1 h2 h3 h4 h5
  subst h1
  unfold fsLine
  dsimp only
  by_cases hl : l.2 = true
  · rw [if_pos hl, fsName_eq]
    have hp : Spec.fsListed setdir [l] = [Spec.fsPath setdir l.1] := by simp [Spec.fsListed, hl]
    rw [hp]
    have hnn := fsPath_noNul hd l.1
    generalize Spec.fsPath setdir l.1 = key at hnn ⊢
    have hs' : (markKept es ps).Pairwise fun a b => cStrcmp a.fname b.fname ≤ 0 :=
      sorted_names (R := fun a b => cStrcmp a b ≤ 0) (markKept_names es ps) hs
    cases hb : lc.bsearch (markKept es ps) key with
    | none =>
      have habs := hlc.absent _ _ hs' hb
      have hk : key ∉ es.map FsEntry.fname := by
        intro hk
        rw [← markKept_names es ps] at hk
        obtain ⟨e, he, hek⟩ := List.mem_map.mp hk
        exact habs e he (by rw [hek]; exact cStrcmp_self key)
      refine ⟨_, rfl, ?_, ?_, ?_, ?_, ?_⟩
      · dsimp only
        unfold markKept
        apply List.map_congr_left
        intro e he
        have : e.fname ≠ key := fun h => hk (List.mem_map.mpr ⟨e, he, h⟩)
        simp [this]
      · dsimp only; rw [List.map_append, h2]; rfl
      · intro x hx
        simp only [List.mem_append, List.mem_singleton] at hx
        rcases hx with hx | rfl
        · exact h3 x hx
        · rfl
      · intro x hx hm
        simp only [List.mem_append, List.mem_singleton] at hx
        rcases hx with hx | rfl
        · exact h4 x hx hm
        · exact absurd hm hk
      · dsimp only
        rw [List.filter_append, List.map_append, ← List.append_assoc, ← h5, List.filter_cons_of_pos (by exact decide_eq_true hk)]
        rfl
    | some i =>
      obtain ⟨e', he', hc⟩ := hlc.found _ _ _ hs' hb
      obtain ⟨e, he, hee⟩ : ∃ e, es[i]? = some e ∧ e' = { e with keep := decide (e.fname ∈ ps) } := by
        unfold markKept at he'
        rw [List.getElem?_map] at he'
        cases hx : es[i]? with
        | none => rw [hx] at he'; cases he'
        | some x => rw [hx] at he'; exact ⟨x, rfl, by simpa using he'.symm⟩
      have hmem : e ∈ es := List.mem_of_getElem? he
      have hkey : key = e.fname := cStrcmp_zero hnn (hz e hmem) (by rw [hee] at hc; exact hc)
      dsimp only
      rw [he']
      refine ⟨_, rfl, ?_, ?_, ?_, ?_, ?_⟩
      · dsimp only
        rw [hee, hkey]
        exact markKept_set (ps := ps) hn (i := i) (e := e) he
      · dsimp only; rw [List.map_append, h2]; rfl
      · intro x hx
        simp only [List.mem_append, List.mem_singleton] at hx
        rcases hx with hx | rfl
        · exact h3 x hx
        · rfl
      · intro x hx hm
        simp only [List.mem_append, List.mem_singleton] at hx
        rcases hx with hx | rfl
        · exact h4 x hx hm
        · refine List.mem_map.mpr ⟨e, hmem, ?_⟩
          simp [FsEntry.pair, hkey, hee]
      · dsimp only
        have hk : key ∈ es.map FsEntry.fname := List.mem_map.mpr ⟨e, hmem, hkey.symm⟩
        rw [List.filter_append, List.map_append, ← List.append_assoc, ← h5, List.filter_singleton]
        simp [hk]
  · rw [if_neg hl]
    have hp : Spec.fsListed setdir [l] = [] := by simp [Spec.fsListed, hl]
    rw [hp, List.append_nil]
    exact ⟨_, rfl, rfl, h2, h3, h4, h5⟩

theorem fsLines_loop {lc : FsLibc} (hlc : lc.Ok) {setdir : List UInt8} (hd : NoNul setdir) {es : List FsEntry} {calls0 : List FsCall}
    (hs : es.Pairwise fun a b => cStrcmp a.fname b.fname ≤ 0) (hn : (es.map FsEntry.fname).Nodup) (hz : ∀ e ∈ es, NoNul e.fname) :
    ∀ (ls : List (List UInt8 × Bool)) {ps : List (List UInt8)} {st : List FsEntry × List FsEntry × List FsCall}, FsLoop es calls0 ps st →
      ∃ st', fsLines lc setdir ls st = ok st' ∧ FsLoop es calls0 (ps ++ Spec.fsListed setdir ls) st'
  | [], ps, st, h => ⟨st, rfl, by simpa [Spec.fsListed] using h⟩
  | l :: ls, ps, st, h => by
    obtain ⟨st1, e1, h1⟩ := fsLine_loop hlc hd hs hn hz h l
    obtain ⟨st2, e2, h2⟩ := fsLines_loop hlc hd hs hn hz ls h1
    refine ⟨st2, by rw [fsLines, e1, ok_bind, e2], ?_⟩
    have : Spec.fsListed setdir (l :: ls) = Spec.fsListed setdir [l] ++ Spec.fsListed setdir ls := by
      unfold Spec.fsListed
      rw [← List.map_append, ← List.filter_append]; rfl
    rw [this, ← List.append_assoc]; exact h2

theorem fsDrop_eq : ∀ (es : List FsEntry) (calls : List FsCall),
    fsDrop es calls = calls ++ (es.filter fun e => decide (e.keep = false)).map fun e => FsCall.unload e.fname e.ptr
  | [], calls => by simp [fsDrop]
  | e :: es, calls => by
    rw [fsDrop, fsDrop_eq es]
    by_cases h : e.keep = false
    · simp [h]
    · simp [h]

theorem fsLive_append : ∀ (a b : List FsCall) (l : List (List UInt8 × Nat)), Spec.fsLive (a ++ b) l = (Spec.fsLive a l).bind (Spec.fsLive b)
  | [], _, _ => rfl
  | .load n p :: a, b, l => by rw [List.cons_append, Spec.fsLive, Spec.fsLive, fsLive_append a b]
  | .unload n p :: a, b, l => by
    rw [List.cons_append, Spec.fsLive, Spec.fsLive]
    by_cases h : (n, p) ∈ l
    · rw [if_pos h, if_pos h, fsLive_append a b]
    · rw [if_neg h, if_neg h]; rfl

theorem fsLive_loads : ∀ (xs : List FsEntry) (l : List (List UInt8 × Nat)),
    Spec.fsLive (xs.map fun x => FsCall.load x.fname x.ptr) l = some (l ++ xs.map FsEntry.pair)
  | [], l => by simp [Spec.fsLive]
  | x :: xs, l => by
    rw [List.map_cons, Spec.fsLive, fsLive_loads xs]
    simp [FsEntry.pair]

theorem fsLive_unloads : ∀ (ds : List FsEntry) {l k : List (List UInt8 × Nat)}, l.Perm (ds.map FsEntry.pair ++ k) →
    ∃ l', Spec.fsLive (ds.map fun x => FsCall.unload x.fname x.ptr) l = some l' ∧ l'.Perm k
  | [], l, k, h => ⟨l, rfl, by simpa using h⟩
  | d :: ds, l, k, h => by
    have hm : (d.fname, d.ptr) ∈ l := h.symm.subset (by simp [FsEntry.pair])
    have hp : (l.erase (d.fname, d.ptr)).Perm (ds.map FsEntry.pair ++ k) := by
      have := h.erase (d.fname, d.ptr)
      simpa [FsEntry.pair] using this
    obtain ⟨l', e, h'⟩ := fsLive_unloads ds hp
    refine ⟨l', ?_, h'⟩
    rw [List.map_cons, Spec.fsLive, if_pos hm, e]

/-- The states that are reached. -/
structure FsGood (fs : Fileset) : Prop where
  dir : NoNul fs.setdir
  noNul : ∀ e ∈ fs.entries, NoNul e.fname
  nodup : (fs.entries.map FsEntry.fname).Nodup
  sorted : fs.entries.Pairwise fun a b => cStrcmp a.fname b.fname ≤ 0
  unkept : ∀ e ∈ fs.entries, e.keep = false
  live : ∃ l, Spec.fsLive fs.calls [] = some l ∧ l.Perm (fs.entries.map FsEntry.pair)

theorem fsInit_good {setdir : List UInt8} (h : NoNul setdir) : FsGood (fsInit setdir) :=
  ⟨h, by simp [fsInit], by simp [fsInit], by simp [fsInit], by simp [fsInit], [], rfl, by simp [fsInit]⟩

theorem pair_inj {es : List FsEntry} (hn : (es.map FsEntry.fname).Nodup) {n : List UInt8} {p q : Nat} (hp : (n, p) ∈ es.map FsEntry.pair)
    (hq : (n, q) ∈ es.map FsEntry.pair) : p = q := by
  obtain ⟨a, ha, hap⟩ := List.mem_map.mp hp
  obtain ⟨b, hb, hbq⟩ := List.mem_map.mp hq
  have : a = b := List.inj_on_of_nodup_map hn ha hb (by
    have h1 : a.fname = n := congrArg Prod.fst hap
    have h2 : b.fname = n := congrArg Prod.fst hbq
    rw [h1, h2])
  subst this
  rw [hap] at hbq
  exact congrArg Prod.snd hbq

/-- A reload that reads a set file in which no file occurs twice. -/
theorem reload_read {lc : FsLibc} (hlc : lc.Ok) {fs : Fileset} (h : FsGood fs) {ino mtime : Nat} {ls : List (List UInt8 × Bool)}
    (hu : fs.lastIno ≠ ino ∨ fs.lastMtime ≠ mtime) (hd : (Spec.fsListed fs.setdir ls).Nodup) :
    ∃ fs', fsReload lc ⟨some (ino, mtime), some ls⟩ fs = ok fs' ∧ FsGood fs' ∧ fs'.setdir = fs.setdir ∧
      (fs'.entries.map FsEntry.fname).Perm (Spec.fsListed fs.setdir ls) ∧
      (∀ e ∈ fs.entries, e.fname ∈ Spec.fsListed fs.setdir ls → e.pair ∈ fs'.entries.map FsEntry.pair) ∧
      ∃ loads unloads : List FsEntry, fs'.calls = fs.calls ++ (loads.map fun x => FsCall.load x.fname x.ptr) ++ (unloads.map fun x => FsCall.unload x.fname x.ptr) ∧
        (∀ x ∈ loads, x.fname ∈ Spec.fsListed fs.setdir ls ∧ x.fname ∉ fs.entries.map FsEntry.fname) ∧
        (∀ x ∈ unloads, x.pair ∈ fs.entries.map FsEntry.pair ∧ x.fname ∉ Spec.fsListed fs.setdir ls) := by
  have h0 : FsLoop fs.entries fs.calls [] (fs.entries, [], fs.calls) := by
    refine ⟨?_, rfl, by simp, by simp, by simp⟩
    dsimp only
    unfold markKept
    conv => lhs; rw [← List.map_id fs.entries]
    apply List.map_congr_left
    intro e he
    have := h.unkept e he
    cases e
    simp_all
  obtain ⟨⟨old, new, calls⟩, e1, h1⟩ := fsLines_loop hlc h.dir h.sorted h.nodup h.noNul ls h0
  rw [List.nil_append] at h1
  obtain ⟨a1, a2, a3, a4, a5⟩ := h1
  dsimp only at a1 a2 a3 a4 a5
  set_option linter.unusedVariables false in
  have hrun : fsReload lc ⟨some (ino, mtime), some ls⟩ fs =
      ok { fs with lastIno := ino, lastMtime := mtime, entries := lc.qsort new, calls := fsDrop old calls } := by
    unfold fsReload
    dsimp only
    rw [if_pos hu, e1, ok_bind]
  have hperm := hlc.perm new
  have hpn : ((lc.qsort new).map FsEntry.fname).Perm (Spec.fsListed fs.setdir ls) := by rw [← a2]; exact hperm.map _
  -- the kept, the dropped and the fresh entries
  have hdrop : fsDrop old calls = fs.calls ++ ((new.filter fun x => decide (x.fname ∉ fs.entries.map FsEntry.fname)).map fun x => FsCall.load x.fname x.ptr) ++
      ((fs.entries.filter fun e => decide (e.fname ∉ Spec.fsListed fs.setdir ls)).map fun x => FsCall.unload x.fname x.ptr) := by
    rw [fsDrop_eq, a5, a1]
    congr 1
    unfold markKept
    rw [List.filter_map, List.map_map]
    have hf : (fs.entries.filter ((fun e : FsEntry => decide (e.keep = false)) ∘ fun e : FsEntry => { e with keep := decide (e.fname ∈ Spec.fsListed fs.setdir ls) })) =
        fs.entries.filter fun e => decide (e.fname ∉ Spec.fsListed fs.setdir ls) := by
      apply List.filter_congr
      intro x _
      simp
    rw [hf]
    rfl
  obtain ⟨l, hl, hlp⟩ := h.live
  have hnewnames : ∀ n, n ∈ Spec.fsListed fs.setdir ls ↔ ∃ x ∈ new, x.fname = n := by
    intro n; rw [← a2]; exact List.mem_map
  have hpairnodup : ∀ {es : List FsEntry}, (es.map FsEntry.fname).Nodup → (es.map FsEntry.pair).Nodup := by
    intro es hn
    refine List.Nodup.of_map Prod.fst ?_
    rw [List.map_map]
    exact hn
  have hnn : (new.map FsEntry.fname).Nodup := by rw [a2]; exact hd
  have hkept : ((fs.entries.filter fun e => decide (e.fname ∈ Spec.fsListed fs.setdir ls)).map FsEntry.pair ++
      (new.filter fun x => decide (x.fname ∉ fs.entries.map FsEntry.fname)).map FsEntry.pair).Perm (new.map FsEntry.pair) := by
    have hsplit : ((new.filter fun x => decide (x.fname ∈ fs.entries.map FsEntry.fname)).map FsEntry.pair ++
        (new.filter fun x => decide (x.fname ∉ fs.entries.map FsEntry.fname)).map FsEntry.pair).Perm (new.map FsEntry.pair) := by
      rw [← List.map_append]
      refine List.Perm.map _ ?_
      have := List.filter_append_perm (fun x : FsEntry => decide (x.fname ∈ fs.entries.map FsEntry.fname)) new
      refine (List.Perm.of_eq ?_).trans this
      congr 1
      apply List.filter_congr
      intro x _
      exact decide_not
    refine List.Perm.trans (List.Perm.append_right _ ?_) hsplit
    refine (List.perm_ext_iff_of_nodup ?_ ?_).mpr ?_
    · exact hpairnodup (h.nodup.sublist (List.Sublist.map _ List.filter_sublist))
    · exact hpairnodup (hnn.sublist (List.Sublist.map _ List.filter_sublist))
    · rintro ⟨n, p⟩
      constructor
      · intro hm
        obtain ⟨e, he, hep⟩ := List.mem_map.mp hm
        obtain ⟨he, hin⟩ := List.mem_filter.mp he
        obtain ⟨x, hx, hxn⟩ := (hnewnames e.fname).mp (by simpa using hin)
        have hxm : x.fname ∈ fs.entries.map FsEntry.fname := List.mem_map.mpr ⟨e, he, hxn.symm⟩
        have h1 := a4 x hx hxm
        have hpe : (x.fname, e.ptr) ∈ fs.entries.map FsEntry.pair := List.mem_map.mpr ⟨e, he, by simp [FsEntry.pair, hxn]⟩
        have hptr : x.ptr = e.ptr := pair_inj h.nodup h1 hpe
        refine List.mem_map.mpr ⟨x, List.mem_filter.mpr ⟨hx, by simpa using hxm⟩, ?_⟩
        rw [← hep]; simp [FsEntry.pair, hxn, hptr]
      · intro hm
        obtain ⟨x, hx, hxp⟩ := List.mem_map.mp hm
        obtain ⟨hx, hin⟩ := List.mem_filter.mp hx
        have hxm : x.fname ∈ fs.entries.map FsEntry.fname := by simpa using hin
        obtain ⟨e, he, hep⟩ := List.mem_map.mp (a4 x hx hxm)
        have hen : e.fname = x.fname := congrArg Prod.fst hep
        refine List.mem_map.mpr ⟨e, List.mem_filter.mpr ⟨he, ?_⟩, by rw [hep, hxp]⟩
        have : e.fname ∈ Spec.fsListed fs.setdir ls := (hnewnames _).mpr ⟨x, hx, hen.symm⟩
        simpa using this
  have hlive : ∃ l', Spec.fsLive (fsDrop old calls) [] = some l' ∧ l'.Perm (new.map FsEntry.pair) := by
    have hent : (fs.entries.map FsEntry.pair).Perm ((fs.entries.filter fun e => decide (e.fname ∉ Spec.fsListed fs.setdir ls)).map FsEntry.pair ++
        (fs.entries.filter fun e => decide (e.fname ∈ Spec.fsListed fs.setdir ls)).map FsEntry.pair) := by
      rw [← List.map_append]
      refine List.Perm.map _ (List.Perm.symm ?_)
      have := List.filter_append_perm (fun x : FsEntry => decide (x.fname ∉ Spec.fsListed fs.setdir ls)) fs.entries
      refine (List.Perm.of_eq ?_).trans this
      congr 1
      apply List.filter_congr
      intro x _
      simp
    have hbig : (l ++ (new.filter fun x => decide (x.fname ∉ fs.entries.map FsEntry.fname)).map FsEntry.pair).Perm
        ((fs.entries.filter fun e => decide (e.fname ∉ Spec.fsListed fs.setdir ls)).map FsEntry.pair ++ new.map FsEntry.pair) := by
      refine ((hlp.trans hent).append_right _).trans ?_
      rw [List.append_assoc]
      exact List.Perm.append_left _ hkept
    obtain ⟨l', e, hp⟩ := fsLive_unloads _ hbig
    refine ⟨l', ?_, hp⟩
    rw [hdrop, fsLive_append, fsLive_append, hl, Option.bind_some, fsLive_loads, Option.bind_some, e]
  refine ⟨_, hrun, ?_, rfl, hpn, ?_, ?_⟩
  · refine ⟨h.dir, ?_, ?_, hlc.sorted new, ?_, ?_⟩
    · intro e he
      have he : e ∈ new := hperm.subset he
      have : e.fname ∈ Spec.fsListed fs.setdir ls := (hnewnames _).mpr ⟨e, he, rfl⟩
      unfold Spec.fsListed at this
      obtain ⟨x, _, hx⟩ := List.mem_map.mp this
      rw [← hx]; exact fsPath_noNul h.dir _
    · exact hpn.nodup_iff.mpr hd
    · intro e he; exact a3 e (hperm.subset he)
    · obtain ⟨l', e, hp⟩ := hlive
      exact ⟨l', e, hp.trans (hperm.map _).symm⟩
  · intro e he hin
    dsimp only
    refine ((hperm.map FsEntry.pair).symm).subset (hkept.subset (List.mem_append_left _ ?_))
    exact List.mem_map.mpr ⟨e, List.mem_filter.mpr ⟨he, by simpa using hin⟩, rfl⟩
  · refine ⟨_, _, hdrop, ?_, ?_⟩
    · intro x hx
      obtain ⟨hx, hin⟩ := List.mem_filter.mp hx
      exact ⟨(hnewnames _).mpr ⟨x, hx, rfl⟩, by simpa using hin⟩
    · intro x hx
      obtain ⟨hx, hin⟩ := List.mem_filter.mp hx
      exact ⟨List.mem_map.mpr ⟨x, hx, rfl⟩, by simpa using hin⟩

/-- A reload with no file occurring twice in the set file (if it is read). -/
theorem reload_good {lc : FsLibc} (hlc : lc.Ok) {fs : Fileset} (h : FsGood fs) (w : FsWorld)
    (hd : ∀ ls, w.lines = some ls → (Spec.fsListed fs.setdir ls).Nodup) : ∃ fs', fsReload lc w fs = ok fs' ∧ FsGood fs' ∧ fs'.setdir = fs.setdir := by
  obtain ⟨stat, lines⟩ := w
  match stat with
  | none => exact ⟨fs, rfl, h, rfl⟩
  | some (ino, mtime) =>
    by_cases hu : fs.lastIno ≠ ino ∨ fs.lastMtime ≠ mtime
    · match lines with
      | none =>
        refine ⟨{ fs with lastIno := ino, lastMtime := mtime }, ?_, ⟨h.dir, h.noNul, h.nodup, h.sorted, h.unkept, h.live⟩, rfl⟩
        unfold fsReload
        dsimp only
        rw [if_pos hu]
      | some ls =>
        obtain ⟨fs', e, hg, hs, _⟩ := reload_read hlc h hu (hd ls rfl)
        exact ⟨fs', e, hg, hs⟩
    · refine ⟨fs, ?_, h, rfl⟩
      unfold fsReload
      dsimp only
      rw [if_neg hu]

theorem run_good {lc : FsLibc} (hlc : lc.Ok) : ∀ (ws : List FsWorld) {fs : Fileset}, FsGood fs →
    (∀ w ∈ ws, ∀ ls, w.lines = some ls → (Spec.fsListed fs.setdir ls).Nodup) → ∃ fs', fsRun lc ws fs = ok fs' ∧ FsGood fs' ∧ fs'.setdir = fs.setdir
  | [], fs, h, _ => ⟨fs, rfl, h, rfl⟩
  | w :: ws, fs, h, hd => by
    obtain ⟨fs1, e1, h1, d1⟩ := reload_good hlc h w (hd w (by simp))
    obtain ⟨fs2, e2, h2, d2⟩ := run_good hlc ws h1 (by rw [d1]; exact fun w hw => hd w (by simp [hw]))
    exact ⟨fs2, by rw [fsRun, e1, ok_bind, e2], h2, by rw [d2, d1]⟩

/-- **Every history of reloads** of a file set whose set file never lists a file twice, whatever files come and go and whatever `stat` and `fopen`
answer: the files in the set are in strict bytewise order, and what has been loaded and not unloaded is exactly what the set holds; in particular nothing
is ever unloaded that is not loaded.  If the file set is then destroyed, everything has been unloaded. -/
theorem C88_balanced {lc : FsLibc} (hlc : lc.Ok) {setdir : List UInt8} (hdir : NoNul setdir) (ws : List FsWorld)
    (hd : ∀ w ∈ ws, ∀ ls, w.lines = some ls → (Spec.fsListed setdir ls).Nodup) :
    ∃ fs, fsRun lc ws (fsInit setdir) = ok fs ∧ fs.entries.Pairwise (fun a b => Spec.StrBefore a.fname b.fname) ∧
      (∃ l, Spec.fsLive fs.calls [] = some l ∧ l.Perm (fs.entries.map fun e => (e.fname, e.ptr))) ∧ Spec.fsLive (fsDestroy fs) [] = some [] := by
  obtain ⟨fs, e, h, _⟩ := run_good hlc ws (fsInit_good hdir) hd
  refine ⟨fs, e, ?_, h.live, ?_⟩
  · have hne : fs.entries.Pairwise fun a b => a.fname ≠ b.fname := List.pairwise_map.mp h.nodup
    have hs := List.Pairwise.and h.sorted hne
    have hz := h.noNul
    refine List.Pairwise.imp_of_mem ?_ hs
    intro a b ha hb hab
    exact cStrcmp_before (hz a ha) (hz b hb) hab.1 hab.2
  · obtain ⟨l, hl, hp⟩ := h.live
    have hfold : ∀ (es : List FsEntry) (c : List FsCall), es.foldl (fun calls e => calls ++ [FsCall.unload e.fname e.ptr]) c =
        c ++ es.map fun x => FsCall.unload x.fname x.ptr := by
      intro es
      induction es with
      | nil => intro c; simp
      | cons x es ih => intro c; simp [ih]
    obtain ⟨l', e', hp'⟩ := fsLive_unloads fs.entries (l := l) (k := []) (by simpa using hp)
    unfold fsDestroy
    rw [hfold, fsLive_append, hl, Option.bind_some, e', hp'.eq_nil]

theorem run_seen {lc : FsLibc} : ∀ (ws : List FsWorld) {fs fs' : Fileset}, fsRun lc ws fs = ok fs' →
    (fs'.lastIno, fs'.lastMtime) = ((ws.filterMap FsWorld.stat).getLast?).getD (fs.lastIno, fs.lastMtime)
  | [], fs, fs', h => by
    simp only [fsRun, ok.injEq] at h
    rw [h]; rfl
  | w :: ws, fs, fs', h => by
    rw [fsRun, bind_eq_ok] at h
    obtain ⟨g, hg, h⟩ := h
    rw [run_seen ws h]
    unfold fsReload at hg
    cases hw : w.stat with
    | none =>
      rw [hw] at hg
      simp only [ok.injEq] at hg
      rw [List.filterMap_cons_none hw, hg]
    | some st =>
      obtain ⟨ino, mtime⟩ := st
      rw [hw] at hg
      rw [List.filterMap_cons_some hw, List.getLast?_cons]
      have hseen : (g.lastIno, g.lastMtime) = (ino, mtime) := by
        dsimp only at hg
        by_cases hu : fs.lastIno ≠ ino ∨ fs.lastMtime ≠ mtime
        · rw [if_pos hu] at hg
          cases hl : w.lines with
          | none => rw [hl] at hg; simp only [ok.injEq] at hg; rw [← hg]
          | some ls =>
            rw [hl] at hg
            simp only at hg
            rw [bind_eq_ok] at hg
            obtain ⟨x, _, hg⟩ := hg
            simp only [ok.injEq] at hg
            rw [← hg]
        · rw [if_neg hu] at hg
          simp only [ok.injEq] at hg
          rw [← hg]
          by_cases h1 : fs.lastIno = ino
          · by_cases h2 : fs.lastMtime = mtime
            · rw [h1, h2]
            · exact absurd (.inr h2) hu
          · exact absurd (.inl h1) hu
      rw [hseen]
      rfl

/-- **What a reload does** in any state reached by such a history, if the inode number or the modification time of the set file is not what it was when it was last
looked up, and it can be read and lists no file twice: the set then consists
of the listed files that exist; those that were in it keep their pointers and are neither loaded nor unloaded; exactly new files are loaded and exactly
files no longer listed are unloaded. -/
theorem C88_reload {lc : FsLibc} (hlc : lc.Ok) {setdir : List UInt8} (hdir : NoNul setdir) (ws : List FsWorld)
    (hd : ∀ w ∈ ws, ∀ ls, w.lines = some ls → (Spec.fsListed setdir ls).Nodup) {fs : Fileset} (hr : fsRun lc ws (fsInit setdir) = ok fs)
    {ino mtime : Nat} {ls : List (List UInt8 × Bool)} (hseen : Spec.fsSeen ws ≠ (ino, mtime)) (hls : (Spec.fsListed setdir ls).Nodup) :
    ∃ fs', fsReload lc ⟨some (ino, mtime), some ls⟩ fs = ok fs' ∧ (fs'.entries.map FsEntry.fname).Perm (Spec.fsListed setdir ls) ∧
      (∀ e ∈ fs.entries, e.fname ∈ Spec.fsListed setdir ls → (e.fname, e.ptr) ∈ fs'.entries.map fun e => (e.fname, e.ptr)) ∧
      ∃ loads unloads : List FsEntry, fs'.calls = fs.calls ++ (loads.map fun x => FsCall.load x.fname x.ptr) ++ (unloads.map fun x => FsCall.unload x.fname x.ptr) ∧
        (∀ x ∈ loads, x.fname ∈ Spec.fsListed setdir ls ∧ x.fname ∉ fs.entries.map FsEntry.fname) ∧
        (∀ x ∈ unloads, (x.fname, x.ptr) ∈ (fs.entries.map fun e => (e.fname, e.ptr)) ∧ x.fname ∉ Spec.fsListed setdir ls) := by
  have hu : fs.lastIno ≠ ino ∨ fs.lastMtime ≠ mtime := by
    have hrs := run_seen ws hr
    by_cases h1 : fs.lastIno = ino
    · refine .inr fun h2 => hseen ?_
      rw [← h1, ← h2, hrs]; rfl
    · exact .inl h1
  obtain ⟨fs0, e, h, hs⟩ := run_good hlc ws (fsInit_good hdir) hd
  rw [e] at hr
  cases hr
  have hs : fs.setdir = setdir := hs
  subst hs
  obtain ⟨fs', e', _, _, hp, hk, hc⟩ := reload_read hlc h hu hls
  exact ⟨fs', e', hp, hk, hc⟩

/-- **When a reload does nothing**: if the set file cannot be looked up, or its inode number and modification time are what they were when it was last looked up. -/
theorem C88_unchanged {lc : FsLibc} {setdir : List UInt8} (ws : List FsWorld) {fs : Fileset} (hr : fsRun lc ws (fsInit setdir) = ok fs) (lines : Option (List (List UInt8 × Bool))) :
    fsReload lc ⟨none, lines⟩ fs = ok fs ∧ fsReload lc ⟨some (Spec.fsSeen ws), lines⟩ fs = ok fs := by
  refine ⟨rfl, ?_⟩
  have hrs : (fs.lastIno, fs.lastMtime) = Spec.fsSeen ws := run_seen ws hr
  rw [← hrs, fsReload]
  dsimp only
  rw [if_neg (by simp)]

/-- A case of `C88_unchanged`: after nothing but an unsuccessful look nothing is remembered but zeros, and a file with those numbers
would not be read. -/
example (lines : Option (List (List UInt8 × Bool))) (fs : Fileset) (hr : fsRun listLibc [⟨none, none⟩] (fsInit (ascii "/s")) = ok fs) :
    fsReload listLibc ⟨some (0, 0), lines⟩ fs = ok fs := (C88_unchanged [⟨none, none⟩] hr lines).2

/-- The entries are handed out in order. -/
theorem C88_get (fs : Fileset) (i : Nat) : fsGet fs i = (fs.entries.map fun e => (e.fname, e.ptr))[i]? := by
  unfold fsGet
  by_cases h : i < fs.entries.length
  · rw [if_pos h, List.getElem?_map]
  · rw [if_neg h, List.getElem?_eq_none (by simpa using Nat.le_of_not_lt h)]

/-! ## A C library, and histories -/

/-- Insertion sort and linear search: a C library that keeps the requirements. -/
def listLibc : FsLibc where
  qsort es := es.insertionSort fun a b => a.fname.map UInt8.toNat ≤ b.fname.map UInt8.toNat
  bsearch es key := es.findIdx? fun e => decide (cStrcmp key e.fname = 0)

theorem cStrcmp_of_le : ∀ {a b : List UInt8}, a.map UInt8.toNat ≤ b.map UInt8.toNat → cStrcmp a b ≤ 0
  | [], [], _ => by simp [cStrcmp]
  | [], b :: bs, _ => by rw [cStrcmp]; omega
  | a :: as, [], h => by simp at h
  | a :: as, b :: bs, h => by
    rw [List.map_cons, List.map_cons, List.cons_le_cons_iff] at h
    rw [cStrcmp]
    rcases h with h | ⟨h, h'⟩
    · rw [if_neg (by intro e; rw [e] at h; omega)]; omega
    · rw [if_pos (UInt8.toNat_inj.mp h)]; exact cStrcmp_of_le h'

/-- The requirements on `qsort` and `bsearch` can be met. -/
theorem listLibc_ok : listLibc.Ok where
  perm es := List.perm_insertionSort _ es
  sorted es := by
    let r : FsEntry → FsEntry → Prop := fun a b => a.fname.map UInt8.toNat ≤ b.fname.map UInt8.toNat
    have ht : Std.Total r := ⟨fun a b => List.le_total (a.fname.map UInt8.toNat) (b.fname.map UInt8.toNat)⟩
    have htr : IsTrans FsEntry r := ⟨fun a b c h h' => List.le_trans (l₁ := a.fname.map UInt8.toNat) (l₂ := b.fname.map UInt8.toNat) (l₃ := c.fname.map UInt8.toNat) h h'⟩
    exact (List.pairwise_insertionSort r es).imp fun h => cStrcmp_of_le h
  found es key i _ h := by
    obtain ⟨hi, hp, _⟩ := List.findIdx?_eq_some_iff_getElem.mp h
    exact ⟨es[i], List.getElem?_eq_getElem hi, by simpa using hp⟩
  absent es key _ h e he := by
    have := List.findIdx?_eq_none_iff.mp h e he
    simpa using this

/-- A line of a set file: the name and a newline. -/
def fsLn (s : String) : List UInt8 := ascii s ++ [10]

/-- A history: two files; then one of them is replaced by a third; then the set file cannot be read; then it is as it was. -/
def fsHistory : List FsWorld :=
  [⟨some (7, 1), some [(fsLn "b", true), (fsLn "a", true), (fsLn "x", false)]⟩, ⟨some (7, 1), none⟩,
   ⟨some (7, 2), some [(fsLn "c", true), (fsLn "b", true)]⟩, ⟨none, none⟩]

example : fsRun listLibc fsHistory (fsInit (ascii "/s")) = ok
    { lastIno := 7, lastMtime := 2, setdir := ascii "/s",
      entries := [⟨false, ascii "/s/b", 0⟩, ⟨false, ascii "/s/c", 2⟩],
      calls := [.load (ascii "/s/b") 0, .load (ascii "/s/a") 1, .load (ascii "/s/c") 2, .unload (ascii "/s/a") 1] } := by decide +kernel

example : ∀ w ∈ fsHistory, ∀ ls, w.lines = some ls → (Spec.fsListed (ascii "/s") ls).Nodup := by
  intro w hw ls hl
  simp only [fsHistory, List.mem_cons, List.not_mem_nil, or_false] at hw
  rcases hw with rfl | rfl | rfl | rfl <;> cases hl <;> decide +kernel

/-- **A file that is listed twice is unloaded twice.**  The first reload loads it twice; at the next reload both new entries get the pointer of the
same old entry, the other pointer is unloaded; when the file set is destroyed, the remaining pointer is unloaded twice. -/
theorem C88_duplicates_violated :
    ∃ ws fs, fsRun listLibc ws (fsInit (ascii "/s")) = ok fs ∧
      fsDestroy fs = [.load (ascii "/s/a") 0, .load (ascii "/s/a") 1, .unload (ascii "/s/a") 1, .unload (ascii "/s/a") 0, .unload (ascii "/s/a") 0] ∧
      Spec.fsLive (fsDestroy fs) [] = none :=
  ⟨[⟨some (7, 1), some [(fsLn "a", true), (fsLn "a", true)]⟩, ⟨some (7, 2), some [(fsLn "a", true), (fsLn "a", true)]⟩],
   { lastIno := 7, lastMtime := 2, setdir := ascii "/s", entries := [⟨false, ascii "/s/a", 0⟩, ⟨false, ascii "/s/a", 0⟩],
     calls := [.load (ascii "/s/a") 0, .load (ascii "/s/a") 1, .unload (ascii "/s/a") 1] }, by decide +kernel, by decide +kernel, by decide +kernel⟩

/-- **A change can be missed for good.**  If the set file has changed but cannot be opened at the moment of a reload, every later reload, as long as the
file stays as it is, does nothing: the change has been noted before the file was opened. -/
theorem C88_change_missed (lc : FsLibc) (fs : Fileset) (ino mtime : Nat) (ws : List FsWorld) (h : ∀ w ∈ ws, w.stat = some (ino, mtime)) :
    fsRun lc (⟨some (ino, mtime), none⟩ :: ws) fs = ok { fs with lastIno := ino, lastMtime := mtime } := by
  have hstay : ∀ (ws : List FsWorld), (∀ w ∈ ws, w.stat = some (ino, mtime)) → ∀ g : Fileset, g.lastIno = ino → g.lastMtime = mtime → fsRun lc ws g = ok g := by
    intro ws
    induction ws with
    | nil => intro _ g _ _; rfl
    | cons w ws ih =>
      intro hw g h1 h2
      have : fsReload lc w g = ok g := by
        unfold fsReload
        rw [hw w (by simp)]
        dsimp only
        rw [if_neg (by rw [h1, h2]; simp)]
      rw [fsRun, this, ok_bind]
      exact ih (fun w hw' => hw w (by simp [hw'])) g h1 h2
  have h1 : fsReload lc ⟨some (ino, mtime), none⟩ fs = ok { fs with lastIno := ino, lastMtime := mtime } := by
    unfold fsReload
    dsimp only
    by_cases hu : fs.lastIno ≠ ino ∨ fs.lastMtime ≠ mtime
    · rw [if_pos hu]
    · rw [if_neg hu]
      rw [not_or, not_not, not_not] at hu
      obtain ⟨h1, h2⟩ := hu
      subst h1; subst h2; rfl
  rw [fsRun, h1, ok_bind]
  exact hstay ws h _ rfl rfl

/-- A case of `C88_change_missed`: the file cannot be opened once, then keeps its numbers; its lines are not read. -/
example : fsRun listLibc [⟨some (7, 1), none⟩, ⟨some (7, 1), some [(ascii "a\n", true)]⟩] (fsInit (ascii "/s")) =
    ok { fsInit (ascii "/s") with lastIno := 7, lastMtime := 1 } :=
  C88_change_missed _ _ 7 1 [⟨some (7, 1), some [(ascii "a\n", true)]⟩] (by intro w hw; simp only [List.mem_singleton] at hw; subst hw; rfl)

/-- An empty line names the directory of the set file itself, which exists. -/
theorem C88_empty_line (setdir : List UInt8) : Spec.fsListed setdir [([10], true)] = [setdir ++ [47]] := by
  simp [Spec.fsListed, Spec.fsPath]

end Wdns
