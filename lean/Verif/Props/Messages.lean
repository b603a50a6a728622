import Verif.Lemmas.Tales
import Verif.Lemmas.NoToken
import Verif.Lemmas.Declared
import Verif.Props.Safety
/-
C71: what the error messages say is true of the place they point at.
-/

namespace Nxas

open Spec Opnd

/-- The words of a source text. -/
def words (t : Str) : Words where
  mnemonics := insnTable.map (·.mnemonic)
  always := unpredicated
  tests := conditionTests
  registers := c!"SR_TID" :: c!"SR_CTAID" :: s2rTable
  types := programTypes
  defined := fun name => ∃ pre, DefAt t pre name

/-- The message of a diagnostic is true of the text at its position. -/
def Truthful (code : Str) (e : Err) : Prop :=
  ∃ pre post, visible code = pre ++ post ∧ e.line = lineAfter pre ∧ e.col = columnAfter pre ∧ Tells true (words (visible code)) post e.msg

/-- The claim: every diagnostic of the assembler with a position is true of the text at this position. -/
def C71_claim : Prop := ∀ (dbg : Bool) (code : Str) (e : Err), assemble dbg code = .exit (.located e) → Truthful code e

theorem defAt_first {t name : Str} {pre : Str} (h : DefAt t pre name) : ∃ pre', FirstDef t pre' name := by
  obtain ⟨n, hn⟩ : ∃ n, n = pre.length := ⟨_, rfl⟩
  induction n using Nat.strongRecOn generalizing pre with
  | ind n ih =>
    by_cases hm : ∃ q, DefAt t q name ∧ q.length < pre.length
    · obtain ⟨q, h1, h2⟩ := hm
      exact ih q.length (by omega) h1 rfl
    · refine ⟨pre, h, fun q hq => ?_⟩
      by_contra hlt
      exact hm ⟨q, hq, by omega⟩

theorem table_known : insnTable.all (fun i => i.operands.all fun o => o.known conditionTests (c!"SR_TID" :: c!"SR_CTAID" :: s2rTable)) = true := by
  decide +kernel

theorem table_always : insnTable.all (fun i => i.flags % 2 != 1 || unpredicated.contains i.mnemonic) = true := by decide +kernel

theorem words_of {t : Str} {ls : Labels} (h : genLabels t = .ok ls) : WordsOf (words t) ls insnTable where
  labels := by
    rintro x hx ⟨pre, hp⟩
    obtain ⟨q, hq⟩ := defAt_first hp
    have := (genLabels_find h x (addressOf (q.count ';'))).2 ⟨q, hq, rfl⟩
    rw [hx] at this
    simp at this
  operands := by
    intro i hi o ho
    have := List.all_eq_true.mp table_known i hi
    exact List.all_eq_true.mp this o ho
  types := rfl
  always := by
    intro i hi hf
    have := List.all_eq_true.mp table_always i hi
    simpa [hf, words] using this
  mnemonics := by
    intro x hx
    obtain ⟨i, hi, rfl⟩ := List.mem_map.mp hx
    exact ⟨i, hi, rfl⟩

theorem Tale.tells {v : Words} {t : Str} {e : Err} (hz : '\x00' ∉ t) (h : Tale v ⟨t, 0, 0⟩ e) :
    ∃ pre post, t = pre ++ post ∧ e.line = lineAfter pre ∧ e.col = columnAfter pre ∧ Tells false v post e.msg := by
  have pos : ∀ c : Cur, Reach ⟨t, 0, 0⟩ c → ∃ pre, t = pre ++ c.text ∧ c.line = lineAfter pre ∧ c.col = columnAfter pre := by
    rintro c ⟨pre, hp, hq⟩
    simp only [posAfter_eq, Prod.mk.injEq] at hq
    exact ⟨pre, hp, hq.1.symm, hq.2.symm⟩
  have nz : ∀ c : Cur, Reach ⟨t, 0, 0⟩ c → '\x00' ∉ c.text := by
    rintro c ⟨pre, hp, -⟩ hm
    exact hz (by rw [show t = pre ++ c.text from hp]; simp [hm])
  rcases h with ⟨c, h1, h2⟩ | ⟨c, tk, c', h1, h2, h3, h4, h5⟩
  · obtain ⟨c1, h3, h4, h5, h6, h7⟩ := tokenize_tells (nz c h1) h2
    obtain ⟨pre, e1, e2, e3⟩ := pos c1 (h1.trans h3)
    exact ⟨pre, c1.text, e1, by rw [h4, e2], by rw [h5, e3], .none h7 h6⟩
  · rcases tokenize_inv (nz c h1) h2 with ⟨s, e1, -, e2, e3⟩ | ⟨s, w, e1, -, e2, e3, -⟩
    · have hr : Reach c (c.move s []) := ⟨s, by simpa [Cur.move] using e1, rfl⟩
      obtain ⟨pre, p1, p2, p3⟩ := pos _ (h1.trans hr)
      subst e2
      exact ⟨pre, [], p1, by rw [h3]; exact p2, by rw [h4]; exact p3, .ended rfl h5⟩
    · have hr : Reach c (c.move s (w ++ c'.text)) := ⟨s, by simpa [Cur.move] using e1, rfl⟩
      obtain ⟨pre, p1, p2, p3⟩ := pos _ (h1.trans hr)
      refine ⟨pre, w ++ c'.text, p1, ?_, ?_, .token rfl e2 h5⟩
      · rw [h3, e3]; exact p2
      · rw [h4, e3]; exact p3

/-- Every diagnostic with a position is true of the text at this position, except for the five messages of `misplaced`,
    `noFloat` and `noCount`, about which nothing is said. -/
theorem C71_partial {dbg : Bool} {code : Str} {e : Err} (h : assemble dbg code = .exit (.located e)) :
    ∃ pre post, visible code = pre ++ post ∧ e.line = lineAfter pre ∧ e.col = columnAfter pre ∧
      Tells false (words (visible code)) post e.msg := by
  unfold assemble assembleWith at h
  split at h
  · simp at h
  · rename_i labels hl
    dsimp only at h
    split at h
    · exfalso
      split at h
      · simp at h
      · unfold binary writeDksh at h
        dsimp only at h
        repeat' split at h
        all_goals simp at h
    · rename_i d heq
      obtain ⟨e', h1, h2⟩ := parseAll_good (c0 := ⟨cstr code, 0, 0⟩) (words_of hl) rfl (Reach.refl _) heq
      simp only [h1, Res.exit.injEq, Diag.located.injEq] at h
      subst h
      exact h2.tells (fun hm => by simpa using List.mem_takeWhile_imp hm)
    · simp at h
    · simp at h

example : assemble true c!"NOP;\n  FOO R1;" = .exit (.located ⟨1, 2, ⟨"unknown mnemonic \x1b[1m%.*s\x1b[0m", [.sized c!"FOO"]⟩⟩) := by
  decide +kernel

example : assemble true c!"NOP;\n  MOV R1, R300;" = .exit (.located ⟨1, 10,
    ⟨"register index \x1b[1;31m%.*s\x1b[0m is out of range, expected to be from 0 to 254 inclusively", [.text c!"R300"]⟩⟩) := by
  decide +kernel

example : assemble true c!"MOV R1, R2" = .exit (.located ⟨0, 10, ⟨"expected \x1b[1m%s\x1b[0m", [.text c!"semicolon"]⟩⟩) := by
  decide +kernel

example : Truthful c!"NOP;\n  FOO R1;" ⟨1, 2, ⟨"unknown mnemonic \x1b[1m%.*s\x1b[0m", [.sized c!"FOO"]⟩⟩ := by
  refine ⟨c!"NOP;\n  ", c!"FOO R1;", by decide, by decide, by decide, .token (w := c!"FOO") (r := c!" R1;") (k := .ident c!"FOO") rfl ?_ ?_⟩
  · exact .word (.plain (by decide) (by decide) (by simp [decimal]) (by decide) (by simp [Ends, separators])) (by decide)
  · exact .mnemonic rfl (by decide +kernel)

/-! ### The misleading messages -/

theorem noToken_fmt {post : Str} {m : Msg} (h : NoToken post m) : m.fmt ∈
    ["failed to parse literal \x1b[1;31m%.*s\x1b[0m", "invalid register index \x1b[1;31m%.*s\x1b[0m",
     "register index \x1b[1;31m%.*s\x1b[0m is out of range, expected to be from 0 to 254 inclusively", "fatal: invalid usage of '!'\n",
     "out of range predicate", "floating point literal cannot have hex characters", "no separator after immediate",
     "no separator after register"] := by
  cases h <;> simp

/-- The formats of the misleading messages. -/
def misleading : List String :=
  misplaced.map (·.1) ++ ["expected floating-point literal, QNAN, or INF", "expected number of general purpose registers"]

theorem fits_misleading {v : Words} {k : Kind} {m : Msg} (h : Fits true v k m) (hm : m.fmt ∈ misleading) :
    (∃ p ∈ misplaced, p.1 = m.fmt ∧ ∀ n ∈ p.2, k ≠ .ident n) ∨
    (m.fmt = "expected floating-point literal, QNAN, or INF" ∧ (∀ x, k ≠ .imm x) ∧ (∀ b, k ≠ .fimm b)) ∨
    (m.fmt = "expected number of general purpose registers" ∧ ∀ x, k ≠ .imm x) := by
  cases h with
  | @misplaced fmt names h hk => exact .inl ⟨_, h, rfl, hk rfl⟩
  | noFloat h => exact .inr (.inl ⟨rfl, (h rfl).1, (h rfl).2.1⟩)
  | noCount h => exact .inr (.inr ⟨rfl, h rfl⟩)
  | @listing fmt names h hk => exact absurd hm ((by decide : ∀ p ∈ listings, p.1 ∉ misleading) _ h)
  | @noSize fmt h hk => exact absurd hm ((by decide : ∀ p ∈ sizes, p ∉ misleading) _ h)
  | @unspecific fmt h => exact absurd hm ((by decide : ∀ p ∈ Spec.unspecific, p ∉ misleading) _ h)
  | _ => exact absurd hm (by simp [misleading, misplaced])

/-- A misleading message is not true of a token it denies. -/
theorem not_tells {v : Words} {post : Str} {m : Msg} {tk : Token} {c' : Cur} (hz : '\x00' ∉ post)
    (ht : tokenize ⟨post, 0, 0⟩ = .ok tk c') (hne : post ≠ []) (hm : m.fmt ∈ misleading)
    (hd : (∀ p ∈ misplaced, p.1 = m.fmt → ∃ n ∈ p.2, tk.kind = .ident n) ∧
      (m.fmt = "expected floating-point literal, QNAN, or INF" → (∃ x, tk.kind = .imm x) ∨ ∃ b, tk.kind = .fimm b) ∧
      (m.fmt = "expected number of general purpose registers" → ∃ x, tk.kind = .imm x)) : ¬ Tells true v post m := by
  intro h
  cases h with
  | @token w r k _ h hw hf =>
    have e := tokenize_lexeme (c := ⟨post, 0, 0⟩) hz h hw
    rw [ht] at e
    have hk : tk.kind = k := by
      simp only [TokRes.ok.injEq] at e
      rw [e.1]
    rw [hk] at hd
    rcases fits_misleading hf hm with ⟨p, h1, h2, h3⟩ | ⟨h1, h2, h3⟩ | ⟨h1, h2⟩
    · obtain ⟨n, h4, h5⟩ := hd.1 p h1 h2
      exact h3 n h4 h5
    · rcases hd.2.1 h1 with ⟨x, hx⟩ | ⟨b, hb⟩
      · exact h2 x hx
      · exact h3 b hb
    · obtain ⟨x, hx⟩ := hd.2.2 h1
      exact h2 x hx
  | ended h => exact hne h
  | none _ hn =>
    have h1 := noToken_fmt hn
    exact absurd hm ((by decide : ∀ f ∈ _, f ∉ misleading) _ h1)

theorem not_true {code : Str} {e : Err} {n : Nat} {tk : Token} {c' : Cur} (hz : '\x00' ∉ code)
    (hp : ∀ k ∈ List.range (code.length + 1), lineAfter (code.take k) = e.line → columnAfter (code.take k) = e.col → k = n)
    (ht : tokenize ⟨code.drop n, 0, 0⟩ = .ok tk c') (hne : code.drop n ≠ []) (hm : e.msg.fmt ∈ misleading)
    (hd : (∀ p ∈ misplaced, p.1 = e.msg.fmt → ∃ n ∈ p.2, tk.kind = .ident n) ∧
      (e.msg.fmt = "expected floating-point literal, QNAN, or INF" → (∃ x, tk.kind = .imm x) ∨ ∃ b, tk.kind = .fimm b) ∧
      (e.msg.fmt = "expected number of general purpose registers" → ∃ x, tk.kind = .imm x)) : ¬ Truthful code e := by
  rintro ⟨pre, post, h1, h2, h3, h4⟩
  rw [visible_self hz] at h1
  have e1 : code.take pre.length = pre := by rw [h1]; simp
  have e2 : code.drop pre.length = post := by rw [h1]; simp
  have := hp pre.length (by rw [h1]; simp; omega) (by rw [e1, h2]) (by rw [e1, h3])
  subst this
  rw [e2] at ht hne
  refine not_tells (fun hm => hz ?_) ht hne hm hd h4
  rw [h1]; simp [hm]

/-- Each of the five messages is false of some program. -/
theorem C71_violated : ∀ f ∈ misleading, ∃ code e, assemble true code = .exit (.located e) ∧ e.msg.fmt = f ∧ ¬ Truthful code e := by
  intro f hf
  simp only [misleading, misplaced, List.map_cons, List.map_nil, List.cons_append, List.nil_append, List.mem_cons,
    List.not_mem_nil, or_false] at hf
  rcases hf with rfl | rfl | rfl | rfl | rfl
  · refine ⟨c!"SUST.B.2D.IGN [R0], R1, 0x0;", ⟨0, 4, "expected .P or .B"⟩, by decide +kernel, rfl, ?_⟩
    refine not_true (n := 4) (tk := ⟨.ident c!".B", 0, 0⟩) (c' := ⟨c!".2D.IGN [R0], R1, 0x0;", 0, 2⟩) (by decide) (by decide +kernel)
      (by decide +kernel) (by decide) (by decide) ⟨?_, by simp, by simp⟩
    simp [misplaced]
  · refine ⟨c!"LDG.U.64 R0, [R2];", ⟨0, 5, "expected .U8, .S8, .U16, .S16, .32, .64, .128 or .U.128"⟩, by decide +kernel, rfl, ?_⟩
    refine not_true (n := 5) (tk := ⟨.ident c!".64", 0, 0⟩) (c' := ⟨c!" R0, [R2];", 0, 3⟩) (by decide) (by decide +kernel)
      (by decide +kernel) (by decide) (by decide) ⟨?_, by simp, by simp⟩
    simp [misplaced]
  · refine ⟨c!"ATOM.ADD.F32.U32 R0, [R2], R1;", ⟨0, 12, "expected .U32, .S32, .U64, .S64, .F32.FTZ.RN, .F16x2.RN or .S64"⟩,
      by decide +kernel, rfl, ?_⟩
    refine not_true (n := 12) (tk := ⟨.ident c!".U32", 0, 0⟩) (c' := ⟨c!" R0, [R2], R1;", 0, 4⟩) (by decide) (by decide +kernel)
      (by decide +kernel) (by decide) (by decide) ⟨?_, by simp, by simp⟩
    simp [misplaced]
  · refine ⟨c!"FADD32I R0, R1, - 1.0;", ⟨0, 18, "expected floating-point literal, QNAN, or INF"⟩, by decide +kernel, rfl, ?_⟩
    refine not_true (n := 18) (tk := ⟨.fimm 0x3f800000, 0, 0⟩) (c' := ⟨c!";", 0, 3⟩) (by decide) (by decide +kernel)
      (by decide +kernel) (by decide) (by decide) ⟨by simp [misplaced], fun _ => .inr ⟨_, rfl⟩, by simp⟩
  · refine ⟨c!".num_gprs 5\nNOP;", ⟨0, 10, "expected number of general purpose registers"⟩, by decide +kernel, rfl, ?_⟩
    refine not_true (n := 10) (tk := ⟨.imm 5, 0, 0⟩) (c' := ⟨c!"\nNOP;", 0, 1⟩) (by decide) (by decide +kernel)
      (by decide +kernel) (by decide) (by decide) ⟨by simp [misplaced], by simp, fun _ => ⟨5, rfl⟩⟩

theorem C71_not_claim : ¬ C71_claim := by
  intro h
  obtain ⟨code, e, h1, -, h2⟩ := C71_violated _ (by simp [misleading] : "expected number of general purpose registers" ∈ misleading)
  exact h2 (h true code e h1)

end Nxas
