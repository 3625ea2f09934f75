import Verif.Lemmas.TextBase
import Verif.Lemmas.ToText
import Verif.Spec.RdataText

/-!
# The tokens of an rdata text are printable
-/

namespace Wdns
open Outcome Spec

theorem printableTok_svc {k v t} (h : SvcText k v t) : Printable t := by
  unfold SvcText at h
  split at h
  · subst h
    refine Spec.Printable.intercalate (by decide) ?_
    intro x hx
    simp only [List.mem_map] at hx
    obtain ⟨k, _, rfl⟩ := hx
    split
    · decide
    · exact (plain_keyText k).graphic.printable
  · obtain ⟨ids, _, _, rfl⟩ := h; exact printable_quoted _
  · subst h; decide
  · obtain ⟨a, b, _, rfl⟩ := h; exact (plain_decText _).graphic.printable
  · subst h
    refine Spec.Printable.intercalate (by decide) ?_
    intro x hx
    simp only [List.mem_map] at hx
    obtain ⟨k, _, rfl⟩ := hx
    exact (plain_dottedQuad _ _ _ _).graphic.printable
  · subst h; exact (plain_base64 _).graphic.printable
  · subst h
    refine Spec.Printable.intercalate (by decide) ?_
    intro x hx
    simp only [List.mem_map] at hx
    obtain ⟨k, _, rfl⟩ := hx
    exact (plain_ip6Text _).graphic.printable
  · subst h; exact printable_quoted _

theorem printableTok_param {k t} (h : Printable t) : Printable (paramText k t) := by
  unfold paramText
  refine ((plain_keyText k).graphic.printable).append ?_
  split
  · decide
  · exact Spec.Printable.append (a := [61]) (by decide) h

theorem printableTok_params {ps toks} (h : ParamToks ps toks) : ∀ t ∈ toks, Printable t := by
  induction h with
  | nil => simp
  | cons _ h1 _ ih =>
    intro t ht
    rcases List.mem_cons.mp ht with rfl | ht
    · exact printableTok_param (printableTok_svc h1)
    · exact ih t ht
  | last _ h1 => simp only [List.mem_singleton, forall_eq]; exact printableTok_param (printableTok_svc h1)
  | glue _ h1 _ ih =>
    intro t ht
    rcases List.mem_cons.mp ht with rfl | ht
    · exact (printableTok_param (printableTok_svc h1)).append (ih _ (by simp))
    · exact ih t (by simp [ht])

theorem printableTok_field {t f tk} (h : FieldToks t f tk) : ∀ x ∈ tk, Printable x := by
  cases t <;> simp only [FieldToks] at h
  case bytes => subst h; simp only [List.mem_singleton, forall_eq]; exact (plain_hexText _ _).graphic.printable
  case bytesB64 => subst h; simp only [List.mem_singleton, forall_eq]; exact (plain_base64 _).graphic.printable
  case bytesStr => subst h; simp only [List.mem_singleton, forall_eq]; exact printable_quoted _
  case int8 => obtain ⟨_, _, rfl⟩ := h; simp only [List.mem_singleton, forall_eq]; exact (plain_decText _).graphic.printable
  case int16 => obtain ⟨_, _, _, rfl⟩ := h; simp only [List.mem_singleton, forall_eq]; exact (plain_decText _).graphic.printable
  case int32 => obtain ⟨_, _, _, _, _, rfl⟩ := h; simp only [List.mem_singleton, forall_eq]; exact (plain_decText _).graphic.printable
  case ipv4 => obtain ⟨_, rfl⟩ := h; simp only [List.mem_singleton, forall_eq]; exact (plain_dottedQuad _ _ _ _).graphic.printable
  case ipv6 => obtain ⟨_, rfl⟩ := h; simp only [List.mem_singleton, forall_eq]; exact (plain_ip6Text _).graphic.printable
  case ipv6prefix =>
    obtain ⟨pl, s, _, _, _, rfl⟩ := h
    intro x hx
    rcases List.mem_cons.mp hx with rfl | hx
    · exact (plain_decText _).graphic.printable
    · split at hx
      · simp at hx
      · simp only [List.mem_singleton] at hx; subst hx; exact (plain_ip6Text _).graphic.printable
  case eui48 =>
    obtain ⟨_, rfl⟩ := h; simp only [List.mem_singleton, forall_eq]
    refine Spec.Printable.intercalate (by decide) ?_
    intro x hx
    simp only [List.mem_map] at hx
    obtain ⟨k, _, rfl⟩ := hx
    exact (plain_hexText _ _).graphic.printable
  case eui64 =>
    obtain ⟨_, rfl⟩ := h; simp only [List.mem_singleton, forall_eq]
    refine Spec.Printable.intercalate (by decide) ?_
    intro x hx
    simp only [List.mem_map] at hx
    obtain ⟨k, _, rfl⟩ := hx
    exact (plain_hexText _ _).graphic.printable
  case string => obtain ⟨_, _, _, rfl⟩ := h; simp only [List.mem_singleton, forall_eq]; exact printable_quoted _
  case repstring =>
    obtain ⟨ss, _, _, rfl⟩ := h
    intro x hx
    simp only [List.mem_map] at hx
    obtain ⟨k, _, rfl⟩ := hx
    exact printable_quoted _
  case rrtype => obtain ⟨_, _, _, rfl⟩ := h; simp only [List.mem_singleton, forall_eq]; exact (plain_typeText _).graphic.printable
  case typeBitmap =>
    obtain ⟨ss, _, _, rfl⟩ := h
    intro x hx
    simp only [List.mem_map] at hx
    obtain ⟨k, _, rfl⟩ := hx
    exact (plain_typeText _).graphic.printable
  case salt =>
    obtain ⟨s, _, _, rfl⟩ := h; simp only [List.mem_singleton, forall_eq]
    split
    · decide
    · exact (plain_hexText _ _).graphic.printable
  case hash =>
    obtain ⟨s, _, _, rfl⟩ := h; simp only [List.mem_singleton, forall_eq]
    split
    · decide
    · exact (plain_base32 _).graphic.printable
  case svcparams =>
    obtain ⟨s, _, _, h⟩ := h
    exact printableTok_params h

theorem printableTok_rdata {ts w toks} (h : RdataToks ts w toks) : ∀ x ∈ toks, Printable x := by
  induction h with
  | done => simp
  | name _ _ _ ih =>
    intro t ht
    rcases List.mem_cons.mp ht with rfl | ht
    · exact printable_nameText _
    · exact ih t ht
  | field h1 _ _ _ ih =>
    intro t ht
    rcases List.mem_append.mp ht with ht | ht
    · exact printableTok_field h1 t ht
    · exact ih t ht

end Wdns
