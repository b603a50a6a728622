import Verif.Props.Operands
/-
C17, C18, C19: which labels a source has and what they denote.
-/

namespace Nxas

open Spec

/-- A definition has a first one. -/
theorem firstDef_exists {t pre name : Str} (h : DefAt t pre name) : ∃ pre', FirstDef t pre' name ∧ pre'.length ≤ pre.length := by
  generalize hn : pre.length = n
  induction n using Nat.strongRecOn generalizing pre with
  | ind n ih =>
    by_cases hf : ∀ pre', DefAt t pre' name → pre.length ≤ pre'.length
    · exact ⟨pre, ⟨h, hf⟩, by omega⟩
    · simp only [Classical.not_forall] at hf
      obtain ⟨pre', h', hlt⟩ := hf
      obtain ⟨p, h1, h2⟩ := ih pre'.length (by omega) h' rfl
      exact ⟨p, h1, by omega⟩

theorem firstDef_unique {t pre pre' name : Str} (h : FirstDef t pre name) (h' : FirstDef t pre' name) : pre = pre' := by
  have h1 := h.2 _ h'.1
  have h2 := h'.2 _ h.1
  obtain ⟨⟨-, -, r, hr⟩, -⟩ := h
  obtain ⟨⟨-, -, r', hr'⟩, -⟩ := h'
  rw [hr] at hr'
  simp only [List.append_assoc] at hr'
  exact (List.append_inj hr' (by omega)).1

/-- C18. The label table contains a name if and only if some line of the source starts with it,
    immediately followed by a colon. -/
theorem C18_labels {t : Str} {labels : Labels} (h : genLabels t = .ok labels) (name : Str) :
    (∃ a, labels.find name = some a) ↔ ∃ pre, DefAt t pre name := by
  constructor
  · rintro ⟨a, ha⟩
    obtain ⟨pre, hp, -⟩ := (genLabels_find h name a).1 ha
    exact ⟨pre, hp.1⟩
  · rintro ⟨pre, hp⟩
    obtain ⟨pre', h1, -⟩ := firstDef_exists hp
    exact ⟨_, (genLabels_find h name _).2 ⟨pre', h1, rfl⟩⟩

/-- An indented definition is not a label. -/
example : ∃ labels, genLabels c!" foo:\nbar:\nNOP;" = .ok labels ∧ labels.find c!"foo" = none ∧
    labels.find c!"bar" = some 8 := ⟨[(c!"bar", 8)], by decide +kernel, by decide, by decide⟩
example : DefAt c!" foo:\nbar:\nNOP;" c!" foo:\n" c!"bar" :=
  ⟨.inr (by decide), ⟨⟨'b', c!"ar", rfl, .inl (by decide)⟩, by
    intro c hc
    simp at hc
    rcases hc with rfl | rfl | rfl <;> exact .inl (.inl (by decide))⟩, c!"\nNOP;", by decide⟩

/-- C19. Of several definitions of a label the first one counts; the label pass gives no diagnostic: it
    fails on a bare word on the last line only. -/
theorem C19_first {t pre pre' name : Str} {labels : Labels} (h : genLabels t = .ok labels) (hf : FirstDef t pre name)
    (hd : DefAt t pre' name) : labels.find name = some (addressOf (pre.count ';')) ∧ pre.length ≤ pre'.length :=
  ⟨(genLabels_find h name _).2 ⟨pre, hf, rfl⟩, hf.2 _ hd⟩

theorem C19_silent (t : Str) : (∃ labels, genLabels t = .ok labels) ↔ ¬ LastLineIsWord t := by
  have h := genLabels_readPastEnd t
  cases hg : genLabels t with
  | ok labels =>
    rw [hg] at h
    simp only [reduceCtorEq, false_iff] at h
    exact ⟨fun _ => h, fun _ => ⟨labels, rfl⟩⟩
  | error u =>
    obtain ⟨rfl, hb⟩ := genLabels_error hg
    exact ⟨fun ⟨_, h⟩ => by simp at h, fun h => (h hb).elim⟩

example : ∃ labels, genLabels c!"foo:\nNOP;\nfoo:\nNOP;" = .ok labels ∧ labels.find c!"foo" = some 8 :=
  ⟨_, rfl, by decide +kernel⟩

/-- A prefix that is empty or ends in a semicolon is the shortest one with its number of semicolons. -/
theorem prefix_le {a b x y : Str} (he : a ++ x = b ++ y) (ha : a = [] ∨ a.getLast? = some ';')
    (hc : a.count ';' ≤ b.count ';') : a.length ≤ b.length := by
  rcases ha with rfl | ha
  · simp
  · apply Decidable.byContradiction
    intro hlt
    obtain ⟨z, rfl⟩ : ∃ z, a = b ++ z := by
      have := List.prefix_of_prefix_length_le (l₁ := b) (l₂ := a) (l₃ := a ++ x) (by rw [he]; exact List.prefix_append _ _)
        (List.prefix_append _ _) (by omega)
      obtain ⟨z, hz⟩ := this
      exact ⟨z, hz.symm⟩
    rw [List.count_append] at hc
    have hz : z ≠ [] := by rintro rfl; simp at hlt
    rw [List.getLast?_append] at ha
    cases hl : z.getLast? with
    | none => rw [List.getLast?_eq_none_iff] at hl; exact hz hl
    | some c =>
      rw [hl] at ha
      simp only [Option.some_or, Option.some.injEq] at ha
      subst ha
      have := List.count_pos_iff.2 (List.mem_of_getLast? hl)
      omega

theorem IsName.no_semicolon {w : Str} (h : IsName w) : ';' ∉ w := by
  intro hc
  rcases h.2 _ hc with h | h | h
  · rcases h with h | h <;> revert h <;> decide
  · revert h; decide
  · revert h; decide

/-- C17. In a source accepted with assertions, a label denotes the address of the first instruction after
    its definition: the instruction whose index is the number `k` of semicolons before the definition. It
    begins after the end of the instruction before it, which is before the definition, and it ends after
    the definition; its word is at the address that the label denotes. -/
theorem C17_label {code pre name : Str} {words : List (BitVec 64)} {c : Ctx} {s : St}
    (ha : assemble true code = .ok words) (hd : ¬ c!".dksh" <:+: visible code)
    (hf : FirstDef (visible code) pre name) (hi : InstrAt true code (pre.count ';') c s) :
    c.labels.find name = some (addressOf (pre.count ';')) ∧
    words[addressOf (pre.count ';') / 8]? = some s.op.value ∧
    (visible code).length - c.cur.text.length ≤ pre.length ∧
    pre.length + name.length + 1 + s.ctx.cur.text.length < (visible code).length := by
  refine ⟨(genLabels_find hi.labels name _).2 ⟨pre, hf, rfl⟩, ?_, ?_⟩
  · have := hi.word ha hd
    rw [addressOf, Nat.mul_div_cancel_left _ (by omega)]
    exact this
  · obtain ⟨q, p, h1, h2, h3, h4, h5⟩ := hi.count ha
    obtain ⟨⟨-, hn, rest, hr⟩, -⟩ := hf
    have e1 := prefix_le (x := p ++ ';' :: s.ctx.cur.text) (b := pre) (y := name ++ ':' :: rest)
      (by rw [← List.append_assoc, ← h1, hr]; simp) h3 (by omega)
    have hl := congrArg List.length h1
    simp only [List.length_append, List.length_cons] at hl
    refine ⟨?_, ?_⟩
    · rw [h2]
      simp only [List.length_append, List.length_cons]
      omega
    · -- the definition contains no semicolon
      apply Decidable.byContradiction
      intro hge
      have : (q ++ p ++ [';']).count ';' ≤ (pre ++ name ++ [':']).count ';' := by
        have hp : (q ++ p ++ [';']) <+: (pre ++ name ++ [':']) := by
          refine List.prefix_of_prefix_length_le (l₃ := visible code) ?_ ?_ ?_
          · exact ⟨s.ctx.cur.text, by rw [h1]; simp⟩
          · exact ⟨rest, by rw [hr]; simp⟩
          · simp only [List.length_append, List.length_cons, List.length_nil]
            omega
        exact hp.sublist.count_le _
      have hno : name.count ';' = 0 := List.count_eq_zero.2 (IsName.no_semicolon hn)
      rw [List.count_append, List.count_append, List.count_append, List.count_append, h4, h5, hno] at this
      simp at this
      omega

/-- Concretely: the label is in the third group, at the address of the eighth instruction. -/
example : ∃ c s, InstrAt true c!"NOP;NOP;NOP;NOP;NOP;NOP;NOP;\nfoo: EXIT;\nBRA foo;" 7 c s ∧
    c.labels.find c!"foo" = some 80 := by
  have h : (instr true c!"NOP;NOP;NOP;NOP;NOP;NOP;NOP;\nfoo: EXIT;\nBRA foo;" 7).map (·.1.labels.find c!"foo") =
    some (some 80) := by decide +kernel
  cases hi : instr true c!"NOP;NOP;NOP;NOP;NOP;NOP;NOP;\nfoo: EXIT;\nBRA foo;" 7 with
  | none => rw [hi] at h; cases h
  | some p => rw [hi] at h; exact ⟨p.1, p.2, instr_at hi, by simpa using h⟩

end Nxas
