import Verif.Lemmas.Twin
import Verif.Lemmas.Compose
import Verif.Lemmas.Written
import Verif.Lemmas.Image
import Verif.Spec.Targets
/-
C86: what follows an instruction that is rejected does not change the diagnostic.
-/

namespace Nxas

open Spec

theorem sealed_of {a : Str} (h1 : a.getLast? ≠ some 'P') (h2 : a.getLast? ≠ some 'p') : Sealed (a ++ c!";") := by
  have key : ∀ x : Char, [x, ';'] <:+ a ++ c!";" → a.getLast? = some x := by
    rintro x ⟨p, hp⟩
    have : p ++ [x] = a := by
      refine List.append_inj_left' (t₁ := c!";") (t₂ := c!";") ?_ rfl
      rw [← hp]
      simp
    rw [← this]
    simp
  exact ⟨by simp [EndsSemi], fun h => h1 (key _ h), fun h => h2 (key _ h)⟩

theorem visible_append {a r : Str} (h : '\x00' ∉ a) : visible (a ++ r) = a ++ visible r := by
  unfold visible
  rw [List.takeWhile_append_of_pos]
  intro x hx
  simp only [decide_eq_true_eq]
  rintro rfl
  exact h hx

/-- The address of a label in a continued text, if the continuation adds no label. -/
theorem firstDef_extend {a r pre name : Str} (hn : Defines (a ++ r) name → Defines a name) :
    FirstDef (a ++ r) pre name ↔ FirstDef a pre name := by
  have left : ∀ p, DefAt a p name → DefAt (a ++ r) p name := by
    rintro p ⟨h1, h2, rest, rfl⟩
    exact ⟨h1, h2, rest ++ r, by simp⟩
  have inside : ∀ p, DefAt (a ++ r) p name → p.length + name.length + 1 ≤ a.length → DefAt a p name := by
    rintro p ⟨h1, h2, rest, he⟩ hlen
    refine ⟨h1, h2, ?_⟩
    rw [show p ++ name ++ ':' :: rest = (p ++ name ++ [':']) ++ rest by simp] at he
    obtain ⟨u, hu⟩ := List.prefix_of_prefix_length_le (l₁ := p ++ name ++ [':']) (l₂ := a) (l₃ := a ++ r) ⟨rest, he.symm⟩ ⟨r, rfl⟩
      (by simp only [List.length_append, List.length_singleton]; omega)
    exact ⟨u, by rw [← hu]; simp⟩
  have size : ∀ p, DefAt a p name → p.length + name.length + 1 ≤ a.length := by
    rintro p ⟨-, -, rest, rfl⟩
    simp only [List.length_append, List.length_cons]
    omega
  constructor
  · rintro ⟨h1, h2⟩
    obtain ⟨q, hq⟩ := hn ⟨pre, h1⟩
    have := h2 q (left q hq)
    have := size q hq
    exact ⟨inside pre h1 (by omega), fun p hp => h2 p (left p hp)⟩
  · rintro ⟨h1, h2⟩
    refine ⟨left pre h1, fun p hp => ?_⟩
    by_contra hlt
    have := size pre h1
    have := h2 p (inside p hp (by omega))
    omega

theorem binary_not_located (ctx : Ctx) (code : List (BitVec 64)) (e : Err) : binary ctx code ≠ .exit (.located e) := by
  have h1 : ∀ n, writeDksh ctx n ≠ .exit (.located e) := by
    intro n h
    unfold writeDksh at h
    repeat' split at h
    all_goals simp at h
  have h2 : ∀ b : Bool, (if b then Res.exit (.plain "write_gfx_header is not implemented") else .ok code : Res (List (BitVec 64))) ≠ .exit (.located e) := by
    intro b
    cases b <;> simp
  unfold binary
  dsimp only
  intro h
  split at h
  · split at h
    · split at h
      · simp at h
      · exact h2 _ h
    · exact h1 _ h
  · exact h2 _ h

theorem no_colon_defines {t name : Str} (h : ':' ∉ t) : ¬ Defines t name := by
  rintro ⟨pre, -, -, rest, rfl⟩
  simp at h

/-- **C86.** If a source that ends with a semicolon is rejected with a diagnostic at a position of the source, then every continuation
    of it is rejected with the same diagnostic at the same position, in both builds: the first error of a source is reported whatever follows
    it. The continuation may be anything that defines no label the source lacks and does not make the last line a bare word. -/
theorem C86 {dbg : Bool} {a r : Str} {e : Err} (hz : '\x00' ∉ a) (hP : a.getLast? ≠ some 'P') (hp : a.getLast? ≠ some 'p')
    (hw : ¬ LastLineIsWord (a ++ c!";" ++ visible r))
    (hl : ∀ name, Defines (a ++ c!";" ++ visible r) name → Defines (a ++ c!";") name)
    (h : assemble dbg (a ++ c!";") = .exit (.located e)) : assemble dbg (a ++ c!";" ++ r) = .exit (.located e) := by
  have hz' : '\x00' ∉ a ++ c!";" := by simp [hz]
  have hv : cstr (a ++ c!";" ++ r) = (a ++ c!";") ++ visible r := visible_append hz'
  have hv0 : cstr (a ++ c!";") = a ++ c!";" := visible_of_no_nul hz'
  have hs := sealed_of hP hp
  have hc : countSemicolons (a ++ c!";") ≤ countSemicolons (a ++ c!";" ++ r) := by simp [countSemicolons]
  unfold assemble assembleWith at h ⊢
  rw [hv0] at h
  rw [hv]
  generalize a ++ c!";" = t at *
  cases hg : genLabels t with
  | error u => simp [hg] at h
  | ok ls =>
    cases hg' : genLabels (t ++ visible r) with
    | error u =>
      exact absurd (genLabels_error hg').2 hw
    | ok ls' =>
      rw [hg] at h
      have hf : ∀ x, ls'.find x = ls.find x := by
        intro x
        apply Option.ext
        intro n
        rw [genLabels_find hg', genLabels_find hg]
        simp only [firstDef_extend (hl x)]
      dsimp only at h ⊢
      have key := parseAll_twin (r := visible r) (table := insnTable) (dbg := dbg) (room := countSemicolons t + 1)
        (room' := countSemicolons (t ++ r) + 1) (by omega) (c := ⟨⟨t, 0, 0⟩, ls, 0, {}⟩) (c' := ⟨⟨t ++ visible r, 0, 0⟩, ls', 0, {}⟩)
        ⟨rfl, hf, rfl, rfl⟩ (.inr hs)
      cases hpa : parseAll insnTable dbg (countSemicolons t + 1) ⟨⟨t, 0, 0⟩, ls, 0, {}⟩ with
      | ok p =>
        rw [hpa] at h
        dsimp only at h
        split at h
        · simp at h
        · exact absurd h (binary_not_located _ _ _)
      | exit d =>
        rw [hpa] at h
        simp only [Res.exit.injEq] at h
        rw [key.1 d hpa, h]
      | abort => rw [hpa] at h; simp at h
      | ub u => rw [hpa] at h; simp at h

/-- A source with an error in its second instruction: the continuation does not matter. -/
example : ∃ e, assemble true c!"NOP;\nIADD R1, R2;\n$garbage \x00 anything" = .exit (.located e) := by
  refine ⟨⟨1, 11, ⟨"expected \x1b[1m%s\x1b[0m and got \x1b[1m%s %.*s\x1b[0m", [.text c!"comma", .text c!"semicolon", .text []]⟩⟩, ?_⟩
  refine C86 (a := c!"NOP;\nIADD R1, R2") (r := c!"\n$garbage \x00 anything") (by decide) (by decide) (by decide) ?_ ?_ (by decide +kernel)
  · refine SafeEnd.not_bareTail fun c hc => ?_
    obtain rfl : c = ' ' := by simpa [visible] using hc.symm
    rfl
  · exact fun name h => absurd h (no_colon_defines (by decide))

/-- A label defined later makes a difference: a branch to it is rejected without it. -/
theorem C86_label : (∃ e, assemble false c!"BRA foo;" = .exit (.located e)) ∧ ∃ w, assemble false (c!"BRA foo;" ++ c!"\nfoo:\nNOP;") = .ok w :=
  ⟨⟨⟨0, 4, ⟨"expected \x1b[1m%s\x1b[0m and got \x1b[1m%s %.*s\x1b[0m", [.text c!"comma", .text c!"identifier", .text c!"foo"]⟩⟩, by decide +kernel⟩,
    ⟨[0x001f8000fc0007e0#64, 0xe24000000007000f#64, 0x50b0000000070f00#64, 0x50b0000000070f00#64], by decide +kernel⟩⟩

/-- So does a semicolon that is swallowed by an initial `P`: `P;` is an unknown mnemonic, `P;:` a label. -/
theorem C86_swallowed : (∃ e, assemble false c!"P;" = .exit (.located e)) ∧ ∃ w, assemble false (c!"P;" ++ c!":\nNOP;") = .ok w :=
  ⟨⟨⟨0, 0, ⟨"unknown mnemonic \x1b[1m%.*s\x1b[0m", [.sized c!"P;"]⟩⟩, by decide +kernel⟩,
    ⟨[0x001f8000fc0007e0#64, 0x50b0000000070f00#64, 0x50b0000000070f00#64, 0x50b0000000070f00#64], by decide +kernel⟩⟩

end Nxas
