import Verif.Lemmas.ToTextFields

/-! # Lemmas: the presentation form of an rdata never ends with `#` -/

namespace Wdns
open Outcome Spec

/-- The text does not end with `#`. -/
def EndOK (t : List UInt8) : Prop := t.getLast? ≠ some 35

instance : DecidablePred EndOK := fun t => by unfold EndOK; infer_instance

theorem EndOK.append {a b : List UInt8} (ha : EndOK a) (hb : EndOK b) : EndOK (a ++ b) := by
  unfold EndOK at *
  rw [List.getLast?_append]
  cases h : b.getLast? with
  | none => simpa using ha
  | some x => rw [h] at hb; simpa using hb

theorem EndOK.plain {t : List UInt8} (h : Plain t) : EndOK t := by
  intro hl
  have := h 35 (List.mem_of_getLast? hl)
  exact absurd rfl this.2.2.2.1

theorem EndOK.snoc {a : List UInt8} {c : UInt8} (hc : c ≠ 35) : EndOK (a ++ [c]) := by
  unfold EndOK; simp [hc]

theorem EndOK.quoted (s : List UInt8) : EndOK (quoted s) := EndOK.snoc (by decide)

theorem EndOK.intercalate {sep : List UInt8} {ts : List (List UInt8)} (hs : EndOK sep) (h : ∀ t ∈ ts, EndOK t) :
    EndOK (List.intercalate sep ts) := by
  induction ts with
  | nil => simp [EndOK, List.intercalate]
  | cons t ts ih =>
    cases ts with
    | nil => simpa [List.intercalate] using h t (by simp)
    | cons t' ts =>
      rw [intercalate_cons_cons]
      exact ((h t (by simp))).append ((hs).append (ih fun x hx => h x (by simp [hx])))

theorem EndOK.spaced {ts : List (List UInt8)} (h : ∀ t ∈ ts, EndOK t) : EndOK (spaced ts) :=
  EndOK.intercalate (by decide) h

theorem EndOK.nameText (n : Name) : EndOK (nameText n) := by
  unfold Spec.nameText
  split
  · decide
  · rename_i hn
    obtain ⟨l, x, rfl⟩ : ∃ l x, n = l ++ [x] := by
      rcases List.eq_nil_or_concat n with h | ⟨l, x, h⟩
      · exact absurd h hn
      · exact ⟨l, x, by simpa using h⟩
    rw [List.flatMap_append, List.flatMap_cons, List.flatMap_nil, List.append_nil, ← List.append_assoc]
    exact EndOK.snoc (by decide)

theorem endOK_svc {k v t} (h : SvcText k v t) : EndOK t := by
  unfold SvcText at h
  split at h
  · subst h
    refine EndOK.intercalate (by decide) ?_
    intro x hx
    simp only [List.mem_map] at hx
    obtain ⟨k, _, rfl⟩ := hx
    split
    · decide
    · exact .plain (plain_keyText k)
  · obtain ⟨ids, _, _, rfl⟩ := h; exact .quoted _
  · subst h; decide
  · obtain ⟨a, b, _, rfl⟩ := h; exact .plain (plain_decText _)
  · subst h
    refine EndOK.intercalate (by decide) ?_
    intro x hx
    simp only [List.mem_map] at hx
    obtain ⟨k, _, rfl⟩ := hx
    exact .plain (plain_dottedQuad _ _ _ _)
  · subst h; exact .plain (plain_base64 _)
  · subst h
    refine EndOK.intercalate (by decide) ?_
    intro x hx
    simp only [List.mem_map] at hx
    obtain ⟨k, _, rfl⟩ := hx
    exact .plain (plain_ip6Text _)
  · subst h; exact .quoted _

theorem endOK_param {k t} (h : EndOK t) : EndOK (paramText k t) := by
  unfold paramText
  refine (EndOK.plain (plain_keyText k)).append ?_
  split
  · decide
  · exact EndOK.append (a := [61]) (by decide) h

theorem endOK_params {ps toks} (h : ParamToks ps toks) : ∀ t ∈ toks, EndOK t := by
  induction h with
  | nil => simp
  | cons _ h1 _ ih =>
    intro t ht
    rcases List.mem_cons.mp ht with rfl | ht
    · exact endOK_param (endOK_svc h1)
    · exact ih t ht
  | last _ h1 => simp only [List.mem_singleton, forall_eq]; exact endOK_param (endOK_svc h1)
  | glue _ h1 _ ih =>
    intro t ht
    rcases List.mem_cons.mp ht with rfl | ht
    · exact (endOK_param (endOK_svc h1)).append (ih _ (by simp))
    · exact ih t (by simp [ht])

theorem endOK_field {t f tk} (h : FieldToks t f tk) : ∀ x ∈ tk, EndOK x := by
  cases t <;> simp only [FieldToks] at h
  case bytes => subst h; simp only [List.mem_singleton, forall_eq]; exact .plain (plain_hexText _ _)
  case bytesB64 => subst h; simp only [List.mem_singleton, forall_eq]; exact .plain (plain_base64 _)
  case bytesStr => subst h; simp only [List.mem_singleton, forall_eq]; exact .quoted _
  case int8 => obtain ⟨_, _, rfl⟩ := h; simp only [List.mem_singleton, forall_eq]; exact .plain (plain_decText _)
  case int16 => obtain ⟨_, _, _, rfl⟩ := h; simp only [List.mem_singleton, forall_eq]; exact .plain (plain_decText _)
  case int32 => obtain ⟨_, _, _, _, _, rfl⟩ := h; simp only [List.mem_singleton, forall_eq]; exact .plain (plain_decText _)
  case ipv4 => obtain ⟨_, rfl⟩ := h; simp only [List.mem_singleton, forall_eq]; exact .plain (plain_dottedQuad _ _ _ _)
  case ipv6 => obtain ⟨_, rfl⟩ := h; simp only [List.mem_singleton, forall_eq]; exact .plain (plain_ip6Text _)
  case ipv6prefix =>
    obtain ⟨pl, s, _, _, _, rfl⟩ := h
    intro x hx
    rcases List.mem_cons.mp hx with rfl | hx
    · exact .plain (plain_decText _)
    · split at hx
      · simp at hx
      · simp only [List.mem_singleton] at hx; subst hx; exact .plain (plain_ip6Text _)
  case eui48 =>
    obtain ⟨_, rfl⟩ := h; simp only [List.mem_singleton, forall_eq]
    refine EndOK.intercalate (by decide) ?_
    intro x hx
    simp only [List.mem_map] at hx
    obtain ⟨k, _, rfl⟩ := hx
    exact .plain (plain_hexText _ _)
  case eui64 =>
    obtain ⟨_, rfl⟩ := h; simp only [List.mem_singleton, forall_eq]
    refine EndOK.intercalate (by decide) ?_
    intro x hx
    simp only [List.mem_map] at hx
    obtain ⟨k, _, rfl⟩ := hx
    exact .plain (plain_hexText _ _)
  case string => obtain ⟨_, _, _, rfl⟩ := h; simp only [List.mem_singleton, forall_eq]; exact .quoted _
  case repstring =>
    obtain ⟨ss, _, _, rfl⟩ := h
    intro x hx
    simp only [List.mem_map] at hx
    obtain ⟨k, _, rfl⟩ := hx
    exact .quoted _
  case rrtype => obtain ⟨_, _, _, rfl⟩ := h; simp only [List.mem_singleton, forall_eq]; exact .plain (plain_typeText _)
  case typeBitmap =>
    obtain ⟨ss, _, _, rfl⟩ := h
    intro x hx
    simp only [List.mem_map] at hx
    obtain ⟨k, _, rfl⟩ := hx
    exact .plain (plain_typeText _)
  case salt =>
    obtain ⟨s, _, _, rfl⟩ := h; simp only [List.mem_singleton, forall_eq]
    split
    · decide
    · exact .plain (plain_hexText _ _)
  case hash =>
    obtain ⟨s, _, _, rfl⟩ := h; simp only [List.mem_singleton, forall_eq]
    split
    · decide
    · exact .plain (plain_base32 _)
  case svcparams =>
    obtain ⟨s, _, _, h⟩ := h
    exact endOK_params h

theorem endOK_rdata {ts w toks} (h : RdataToks ts w toks) : ∀ x ∈ toks, EndOK x := by
  induction h with
  | done => simp
  | name _ _ _ ih =>
    intro t ht
    rcases List.mem_cons.mp ht with rfl | ht
    · exact .nameText _
    · exact ih t ht
  | field h1 _ _ _ ih =>
    intro t ht
    rcases List.mem_append.mp ht with ht | ht
    · exact endOK_field h1 t ht
    · exact ih t ht

end Wdns
