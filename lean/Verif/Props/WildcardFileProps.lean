import Verif.Props.WildcardProps
import Verif.Proofs.WildcardAnyFile
/-
  C10 and C11 for any file: which ones are accepted, and which ones make opening panic.
-/
namespace Rodb
open Spec

/-- **C10**, for any file whatever its origin: it is accepted exactly if its header is that of a complete index with the configured number of properties and case
sensitivity, for a data file of the present size and second of modification, and the tree of each property begins within the file or nowhere (place 0). It is not changed.
Missing for the full C10: the names of the properties and the contents of the input are not compared, see `C10_false`. -/
theorem C10_any_file_partial (lower : Bytes → Bytes) (cfg : WildcardConfig) (input : Input) (file : Bytes) :
    (∃ w, newWildcard lower cfg input (some file) = (.ok w, file)) ↔
      cfg.properties.length ≤ 2^45 ∧
      (∃ size t, input.size = .ok size ∧ input.modTimeNs = .ok t ∧ HeaderFor file size (t / 10^9) cfg.ignoreCase cfg.properties.length) ∧
      ∀ k < cfg.properties.length, rootAt file k = 0 ∨ rootAt file k + 56 ≤ file.length := by
  have hro : (∃ w, newWildcard lower cfg input (some file) = (.ok w, file)) ↔ ∃ w, (newWildcard lower cfg input (some file)).1 = .ok w := by
    constructor
    · rintro ⟨w, h⟩; exact ⟨w, by rw [h]⟩
    · rintro ⟨w, h⟩; exact ⟨w, Prod.ext h (newWildcard_readOnly lower cfg input file)⟩
  rw [hro]
  rcases opening_stages lower cfg input file with ⟨h1, msg, h2⟩ | ⟨h1, hc, msg, h2⟩ | ⟨h1, h2, h3, h4, msg, h5⟩ | ⟨h1, roots, h2, h3, h4, h5, h6⟩
  · rw [h2]
    exact ⟨fun ⟨w, h⟩ => (by cases h), fun ⟨_, ⟨_, _, _, _, h⟩, _⟩ => absurd h.long (by omega)⟩
  · rw [h2]
    exact ⟨fun ⟨w, h⟩ => (by cases h), fun ⟨hn, ⟨_, _, _, _, h⟩, _⟩ => absurd h.count (by omega)⟩
  · rw [h5]
    exact ⟨fun ⟨w, h⟩ => (by cases h), fun ⟨hn, ⟨_, _, _, _, h⟩, _⟩ => absurd h.count (by have := h.long; omega)⟩
  · rw [h6]
    have hv := header_valid (cfg := cfg) (input := input) h1 h2 h4
    have hno : ∀ e, (headerOf file roots).assertValid (cfg.metadataInput input) = .error e →
        ¬ ∃ size t, input.size = .ok size ∧ input.modTimeNs = .ok t ∧ HeaderFor file size (t / 10^9) cfg.ignoreCase cfg.properties.length := by
      intro e he hh
      rw [hv.2 hh] at he
      cases he
    cases ha : (headerOf file roots).assertValid (cfg.metadataInput input) with
    | error e => exact ⟨fun ⟨w, h⟩ => (by cases h), fun ⟨_, hh, _⟩ => absurd hh (hno e ha)⟩
    | ok u =>
      have hh := hv.1 ha
      have hlen : roots.length = cfg.properties.length := by
        obtain ⟨_, _, _, _, h⟩ := hh
        have := h.count
        omega
      have hl := loadRoots_ok_iff (m := headerOf file roots) (f := file) (b := cfg.bufferSize) cfg.properties 0 [] (show 0 + cfg.properties.length ≤ roots.length by omega)
      have hr : (∃ w, ((loadRoots (headerOf file roots) cfg.properties 0 [] (Stream.new file file.length cfg.bufferSize)).1.map
          (fun index => { config := cfg, inputName := input.name, index := index, stream := Stream.new file file.length cfg.bufferSize : Wildcard })) = .ok w) ↔
          ∃ x, (loadRoots (headerOf file roots) cfg.properties 0 [] (Stream.new file file.length cfg.bufferSize)).1 = .ok x := by
        cases (loadRoots (headerOf file roots) cfg.properties 0 [] (Stream.new file file.length cfg.bufferSize)).1 with
        | ok x => exact ⟨fun _ => ⟨_, rfl⟩, fun _ => ⟨_, rfl⟩⟩
        | error e => exact ⟨fun ⟨_, h⟩ => (by cases h), fun ⟨_, h⟩ => (by cases h)⟩
      refine Iff.trans hr (Iff.trans hl ?_)
      constructor
      · intro hk
        exact ⟨by omega, hh, fun k hk' => hk k (Nat.zero_le _) (by omega) _ (h5 k (by omega))⟩
      · rintro ⟨_, _, hk⟩ k _ hk' r hr'
        have e : (headerOf file roots).roots[k]? = some (rootAt file k) := h5 k (by omega)
        rw [e] at hr'
        cases hr'
        exact hk k (by omega)

/-- **C11**, for any file: opening it panics exactly if its header announces a negative number of properties or more than 2^45, or if the file is a header that is
accepted with one property and nothing more, whose tree is said to begin at 2^63-1. In all other cases it succeeds or ends with an error. The file is not changed.
(Searches afterwards: C107.) Missing for the full C11: that it never panics, see `C11_false`. -/
theorem C11_panics_iff_partial (lower : Bytes → Bytes) (cfg : WildcardConfig) (input : Input) (file : Bytes)
    (hsize : ∀ e, input.size = .error e → IsError e) (htime : ∀ e, input.modTimeNs = .error e → IsError e) :
    ((∃ msg, newWildcard lower cfg input (some file) = (.error (.panic msg), file)) ↔
      (47 ≤ file.length ∧ (signedAt file 39 < 0 ∨ signedAt file 39 > 2^45)) ∨
      (file.length = 55 ∧ cfg.properties.length = 1 ∧ rootAt file 0 = 2^63 - 1 ∧
        ∃ size t, input.size = .ok size ∧ input.modTimeNs = .ok t ∧ HeaderFor file size (t / 10^9) cfg.ignoreCase 1)) ∧
    ((∃ msg, newWildcard lower cfg input (some file) = (.error (.panic msg), file)) ∨
      (∃ w, newWildcard lower cfg input (some file) = (.ok w, file)) ∨ ∃ msg, newWildcard lower cfg input (some file) = (.error (.err msg), file)) := by
  have hro : ∀ r, newWildcard lower cfg input (some file) = (r, file) ↔ (newWildcard lower cfg input (some file)).1 = r := fun r => by
    constructor
    · intro h; rw [h]
    · intro h; exact Prod.ext h (newWildcard_readOnly lower cfg input file)
  simp only [hro]
  rcases opening_stages lower cfg input file with ⟨h1, msg, h2⟩ | ⟨h1, hc, msg, h2⟩ | ⟨h1, h2, h3, h4, msg, h5⟩ | ⟨h1, roots, h2, h3, h4, h5, h6⟩
  · rw [h2]
    exact ⟨⟨fun ⟨_, h⟩ => (by cases h), fun h => absurd h (by omega)⟩, .inr (.inr ⟨_, rfl⟩)⟩
  · rw [h2]
    exact ⟨⟨fun _ => .inl ⟨h1, hc⟩, fun _ => ⟨_, rfl⟩⟩, .inl ⟨_, rfl⟩⟩
  · rw [h5]
    refine ⟨⟨fun ⟨_, h⟩ => (by cases h), fun h => ?_⟩, .inr (.inr ⟨_, rfl⟩)⟩
    rcases h with h | ⟨k1, k2, k3, _, _, _, _, h⟩
    · exact absurd h (by omega)
    · have := h.count
      omega
  · rw [h6]
    have hv := header_valid (cfg := cfg) (input := input) h1 h2 h4
    have hcount : ¬ (47 ≤ file.length ∧ (signedAt file 39 < 0 ∨ signedAt file 39 > 2^45)) := by omega
    cases ha : (headerOf file roots).assertValid (cfg.metadataInput input) with
    | error e =>
      obtain ⟨msg, rfl⟩ := assertValid_fails ha hsize htime
      refine ⟨⟨fun ⟨_, h⟩ => (by cases h), fun h => ?_⟩, .inr (.inr ⟨_, rfl⟩)⟩
      rcases h with h | ⟨k1, k2, k3, k⟩
      · exact absurd h hcount
      · rw [← k2] at k
        rw [hv.2 k] at ha
        cases ha
    | ok u =>
      cases u
      have hh := hv.1 ha
      have hlen : roots.length = cfg.properties.length := by
        obtain ⟨_, _, _, _, h⟩ := hh
        have := h.count
        omega
      simp only
      by_cases hbig : 56 ≤ file.length
      · cases hl : (loadRoots (headerOf file roots) cfg.properties 0 [] (Stream.new file file.length cfg.bufferSize)).1 with
        | ok x => exact ⟨⟨fun ⟨_, h⟩ => (by cases h), fun h => absurd h (by omega)⟩, .inr (.inl ⟨_, rfl⟩)⟩
        | error e =>
          obtain ⟨msg, rfl⟩ := loadRoots_fails (Stream.new_inv _ _) hbig (show 0 + cfg.properties.length ≤ roots.length by omega) hl
          exact ⟨⟨fun ⟨_, h⟩ => (by cases h), fun h => absurd h (by omega)⟩, .inr (.inr ⟨_, rfl⟩)⟩
      · match hp : cfg.properties with
        | [] => exact ⟨⟨fun ⟨_, h⟩ => (by cases h), fun h => absurd h (by simp only [List.length_nil]; omega)⟩, .inr (.inl ⟨_, rfl⟩)⟩
        | [p] =>
          rw [hp, List.length_singleton] at hlen
          have hroot : (headerOf file roots).roots[0]? = some (rootAt file 0) := h5 0 (by omega)
          rw [hp, List.length_singleton] at hh
          simp only [loadRoots, M.bind_def]
          rcases getRootNode_cases (f := file) (b := cfg.bufferSize) hroot with ⟨g1, o, g2⟩ | ⟨g1, g3, msg, g2⟩ | ⟨g1, g3, msg, g2⟩
          · rw [g2]
            exact ⟨⟨fun ⟨_, h⟩ => (by cases h), fun h => absurd h (by omega)⟩, .inr (.inl ⟨_, rfl⟩)⟩
          · rw [g2]
            exact ⟨⟨fun ⟨_, h⟩ => (by cases h), fun h => absurd h (by omega)⟩, .inr (.inr ⟨_, rfl⟩)⟩
          · rw [g2]
            exact ⟨⟨fun _ => .inr ⟨by omega, rfl, by omega, hh⟩, fun _ => ⟨_, rfl⟩⟩, .inl ⟨_, rfl⟩⟩
        | p :: q :: rest =>
          rw [hp] at hlen
          simp only [List.length_cons] at hlen
          omega

namespace WildcardExample
/-- A header of 55 bytes for the example input. -/
def bare (count root : Nat) : Bytes := magicBytes ++ toBE 2 1 ++ toBE 8 1700000000 ++ toBE 8 30 ++ [1] ++ [1] ++ toBE 8 count ++ toBE 8 root

theorem bare_header {root : Nat} (h : root ∈ [0, 2^63 - 1, 2^63 - 2]) : HeaderFor (bare 1 root) 30 1700000000 true 1 := by
  simp only [List.mem_cons, List.not_mem_nil, or_false] at h
  rcases h with rfl | rfl | rfl <;>
    exact ⟨by decide +kernel, by decide +kernel, by decide +kernel, by decide +kernel, by decide +kernel, by decide +kernel, by decide +kernel, by decide +kernel⟩

end WildcardExample

/-- A header and nothing more is accepted if the tree begins nowhere, panics with a tree at 2^63-1, and is an error with one at 2^63-2. -/
example : (∃ w, newWildcard WildcardExample.lower WildcardExample.cfg WildcardExample.input (some (WildcardExample.bare 1 0)) = (.ok w, WildcardExample.bare 1 0)) ∧
    (∃ msg, newWildcard WildcardExample.lower WildcardExample.cfg WildcardExample.input (some (WildcardExample.bare 1 (2^63 - 1))) = (.error (.panic msg), WildcardExample.bare 1 (2^63 - 1))) ∧
    ∃ msg, newWildcard WildcardExample.lower WildcardExample.cfg WildcardExample.input (some (WildcardExample.bare 1 (2^63 - 2))) = (.error (.err msg), WildcardExample.bare 1 (2^63 - 2)) := by
  have hs : ∀ e, WildcardExample.input.size = .error e → IsError e := fun e h => by cases h
  have ht : ∀ e, WildcardExample.input.modTimeNs = .error e → IsError e := fun e h => by cases h
  refine ⟨(C10_any_file_partial _ _ _ _).2 ⟨by decide, ⟨30, 1700000000123456789, rfl, rfl, WildcardExample.bare_header (by decide)⟩, fun k hk => ?_⟩,
    (C11_panics_iff_partial _ _ _ _ hs ht).1.2 (.inr ⟨by decide +kernel, rfl, by decide +kernel, 30, 1700000000123456789, rfl, rfl, WildcardExample.bare_header (by decide)⟩), ?_⟩
  · obtain rfl : k = 0 := by
      have : WildcardExample.cfg.properties.length = 1 := rfl
      omega
    exact .inl (by decide +kernel)
  · have h := C11_panics_iff_partial WildcardExample.lower WildcardExample.cfg WildcardExample.input (WildcardExample.bare 1 (2^63 - 2)) hs ht
    have hr : rootAt (WildcardExample.bare 1 (2^63 - 2)) 0 = 2^63 - 2 := by decide +kernel
    have hlen : (WildcardExample.bare 1 (2^63 - 2)).length = 55 := by decide +kernel
    have hc : signedAt (WildcardExample.bare 1 (2^63 - 2)) 39 = 1 := by decide +kernel
    rcases h.2 with hp | ⟨w, hw⟩ | he
    · exact absurd (h.1.1 hp) (by rw [hr, hc]; omega)
    · have := ((C10_any_file_partial _ _ _ _).1 ⟨w, hw⟩).2.2 0 (by decide)
      rw [hr, hlen] at this
      omega
    · exact he

end Rodb
