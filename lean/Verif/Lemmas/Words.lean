import Verif.Lemmas.Accept
import Verif.Spec.Source
/-
The words that can occur in an instruction.
-/

namespace Nxas

open Spec

/-- Names with a dot in front. -/
def dotted (t : List Str) : List Str := t.map ('.' :: ·)

/-- The words that can occur in an operand, apart from labels. -/
def Operand.words : Operand → List Str
  | .flag s _ => [s]
  | .dotTable _ _ t => dotted t
  | .gpr _ | .mirrorGpr _ | .memAddress _ _ _ _ => [c!".reuse"]
  | .cbuf => [c!"c"]
  | .fimm _ | .dimm20 | .himm _ _ _ => [c!"QNAN", c!"INF"]
  | .bop _ => dotted [c!"AND", c!"OR", c!"XOR", c!"INVALIDBOP3"]
  | .abs _ inner => inner.words
  | .po _ _ => [c!".PO"]
  | .ccTests _ t => c!"CC" :: dotted t
  | .expect s _ _ => [s]
  | .optText s => [s]
  | .immAttr | .patchAttr | .physAttr => [c!"a", c!".reuse"]
  | .xmadSigns => [c!".S16", c!".U16"]
  | .f2fRounding => [c!".ROUND", c!".FLOOR", c!".CEIL", c!".TRUNC", c!".PASS"] ++ dotted [c!"RN", c!"RM", c!"RP", c!"RZ"]
  | .intFormat u s _ _ => dotted u ++ dotted s
  | .plainTable _ t => t
  | .selector _ _ _ shorts bytes => dotted shorts ++ dotted bytes
  | .ldcAddress => [c!"c", c!".reuse"]
  | .s2r t => [c!"SR_TID", c!"SR_CTAID", c!".X", c!".Y", c!".Z"] ++ t
  | .ldgSize => c!".U" :: dotted [c!"U8", c!"S8", c!"U16", c!"S16", c!"32", c!"64", c!"128"]
  | .atomicSize _ => [c!".U32", c!".S32", c!".U64", c!".S64", c!".F32", c!".FTZ", c!".RN", c!".F16x2"]
  | .srcFormat _ _ => dotted [c!"S8", [], c!"S16", c!"S32", c!"U8", c!"U16", c!"U32"]
  | .immFormat _ => dotted [c!"U16", c!"S16"]
  | .texType _ => [c!"1D", c!"ARRAY_1D", c!"2D", c!"ARRAY_2D", c!"3D", c!"ARRAY_3D", c!"CUBE", c!"ARRAY_CUBE"]
  | .texsMode _ => [c!".LZ", c!".LL", c!".DC"]
  | .tldsType _ => [c!"1D", c!"2D", c!"3D", c!"ARRAY_2D"]
  | .texsType _ => [c!"1D", c!"2D", c!"3D", c!"ARRAY_2D", c!"CUBE"]
  | .texsSwizzle => [c!"R", c!"G", c!"B", c!"A", c!"RG", c!"RA", c!"GA", c!"BA", c!"RGB", c!"RGA", c!"RBA", c!"GBA", c!"RGBA"]
  | _ => []

theorem mem_one {α : Type} {x y : α} (h : x ∈ [y]) : y = x := (List.mem_singleton.1 h).symm

theorem Entry.word {t : List Str} {k : Kind} {i : Nat} (h : Entry c!"." t k i) {s : Str} (hs : k = .ident s) : s ∈ dotted t := by
  obtain ⟨name, rfl, h, -⟩ := h
  simp only [Kind.ident.injEq] at hs
  subst hs
  exact List.mem_map.2 ⟨name, List.mem_of_getElem? h, rfl⟩

theorem Entry.plain_word {t : List Str} {k : Kind} {i : Nat} (h : Entry [] t k i) {s : Str} (hs : k = .ident s) : s ∈ t := by
  obtain ⟨name, rfl, h, -⟩ := h
  simp only [Kind.ident.injEq] at hs
  subst hs
  exact List.mem_of_getElem? h

theorem reuse_word {a : Nat} {ks : List Kind} {k : Kind} {r : BitVec 32} (h : Spec.reuse a ks k r) {s : Str} (hs : .ident s ∈ ks) :
    s = c!".reuse" := by
  rcases h with ⟨rfl, -⟩ | ⟨rfl, -⟩ <;> simp_all

theorem optWord_word {w : Str} {bits : BitVec 64} {ks : List Kind} {k : Kind} {b : BitVec 64} {r : BitVec 32}
    (h : optWord w bits ks k b r) {s : Str} (hs : .ident s ∈ ks) : s = w := by
  obtain ⟨-, ⟨rfl, -⟩ | ⟨rfl, -⟩⟩ := h <;> simp_all

theorem modifier_word {d : Option Nat} {a : Nat} {t : List Str} {ks : List Kind} {k : Kind} {b : BitVec 64}
    {r : BitVec 32} (h : modifier d a t ks k b r) {s : Str} (hs : .ident s ∈ ks) : s ∈ dotted t := by
  obtain ⟨-, ⟨k, i, rfl, h, -⟩ | ⟨d, -, rfl, -⟩⟩ := h
  · exact Entry.word h (mem_one hs)
  · simp at hs

theorem float_word {n : Nat} {f : BitVec 32 → BitVec n} {g : Int → BitVec n} {x y : BitVec n} {ks : List Kind}
    {neg : Bool} {v : BitVec n} (h : FloatText n f g x y ks neg v) {s : Str} (hs : .ident s ∈ ks) : s ∈ [c!"QNAN", c!"INF"] := by
  cases h with
  | float => simp at hs
  | int => simp at hs
  | word h => rcases h with ⟨rfl, -⟩ | ⟨rfl, -⟩ <;> simp_all
  | plus h => rcases h with ⟨rfl, -⟩ | ⟨rfl, -⟩ <;> simp_all
  | minus h => rcases h with ⟨rfl, -⟩ | ⟨rfl, -⟩ <;> simp_all

theorem memory_word {i : Bool} {a z j : Nat} {ks : List Kind} {k : Kind} {b : BitVec 64} {r : BitVec 32}
    (h : memory i a z j ks k b r) {s : Str} (hs : .ident s ∈ ks) : s = c!".reuse" := by
  obtain ⟨n, base, off, rfl, h1, h2⟩ := h
  have ho : Kind.ident s ∉ off := by
    rcases h2 with ⟨rfl, -⟩ | ⟨-, y, rfl, -⟩ <;> simp
  simp only [List.mem_cons, List.mem_append, ho, reduceCtorEq, List.not_mem_nil, false_or, or_false] at hs
  rcases h1 with ⟨rest, rfl, h⟩ | ⟨rfl, -⟩
  · exact reuse_word h (by simpa using hs)
  · simp at hs

theorem accepts_word {e : Env} {v : BitVec 64} {o : Operand} {ks : List Kind} {k : Kind} {b : BitVec 64}
    {r : BitVec 32} (h : Accepts e v o ks k b r) {s : Str} (hs : .ident s ∈ ks) : s ∈ o.words ∨ ∃ a, e.label s = some a := by
  have hE := @Entry.word
  have hP := @Entry.plain_word
  induction o generalizing v ks k b with
  | flag | po | optText => left; simp only [Operand.words, List.mem_singleton]; exact optWord_word h hs
  | dotTable | immFormat => left; exact modifier_word h hs
  | selector a ta sh ss bs =>
    left
    have := modifier_word h hs
    simp only [Operand.words, List.mem_append]
    split at this
    · exact .inl this
    · exact .inr this
  | memAddress => left; simp only [Operand.words, List.mem_singleton]; exact memory_word h hs
  | fimm | dimm20 | himm => obtain ⟨-, neg, x, h, -⟩ := h; left; exact float_word h hs
  | gpr =>
    obtain ⟨n, rest, rfl, -, h⟩ := h
    left; simp only [Operand.words, List.mem_singleton]; exact reuse_word h (by simpa using hs)
  | mirrorGpr =>
    obtain ⟨-, n, rest, rfl, -, h⟩ := h
    left; simp only [Operand.words, List.mem_singleton]; exact reuse_word h (by simpa using hs)
  | abs a inner ih =>
    rcases h with ⟨ks1, b1, rfl, -, h⟩ | ⟨-, h⟩
    · exact ih h (by simpa using hs)
    · exact ih h hs
  | patchAttr =>
    obtain ⟨n, rest, plus, y, rfl, h1, h2, -⟩ := h
    have := @reuse_word _ _ _ _ h2 s
    left
    rcases h1 with rfl | rfl <;> simp [Operand.words] at hs ⊢ <;> grind
  | physAttr =>
    obtain ⟨n, rest, rfl, h, -⟩ := h
    have := @reuse_word _ _ _ _ h s
    left
    simp [Operand.words] at hs ⊢; grind
  | ldcAddress =>
    obtain ⟨x, rest, b1, rfl, -, -, h⟩ := h
    have := @memory_word _ _ _ _ _ _ _ _ h s
    left
    simp [Operand.words] at hs ⊢; grind
  | f2fRounding =>
    unfold Accepts at h
    left
    split at h
    · obtain ⟨-, ⟨k, s', x, rfl, hm, rfl, -⟩ | ⟨rfl, -⟩⟩ := h
      · simp only [List.mem_singleton, Kind.ident.injEq] at hs
        subst hs
        simp only [Operand.words, List.mem_append]
        left
        simp at hm ⊢
        grind
      · simp at hs
    · simp only [Operand.words, List.mem_append]
      exact .inr (modifier_word h hs)
  | label =>
    obtain ⟨-, target, ⟨s', a, rfl, h, -⟩ | rfl, -⟩ := h
    · simp only [List.mem_singleton, Kind.ident.injEq] at hs
      subst hs
      exact .inr ⟨a, h⟩
    · simp at hs
  | tldsType a =>
    obtain ⟨-, s', x, rfl, -, hm⟩ := h
    simp only [List.mem_singleton, Kind.ident.injEq] at hs
    subst hs
    left
    have key : ∀ y ∈ tldsCodes, y.1 ∈ (Operand.tldsType a).words := by
      simp only [Operand.words]; decide
    exact key _ hm
  | texsType a =>
    obtain ⟨-, s', x, rfl, -, hm⟩ := h
    simp only [List.mem_singleton, Kind.ident.injEq] at hs
    subst hs
    left
    have key : ∀ y ∈ texsCodes, y.1 ∈ (Operand.texsType a).words := by
      simp only [Operand.words]; decide
    exact key _ hm
  | texsSwizzle =>
    obtain ⟨-, k, i, rfl, -, h⟩ := h
    have := Entry.plain_word h (s := s) (mem_one hs)
    left
    split at this <;> simp [Operand.words] at this ⊢ <;> grind
  | cbuf => obtain ⟨-, x, y, rfl, -⟩ := h; left; simpa [Operand.words] using hs
  | bop | plainTable | texType | intFormat | ccTests =>
    unfold Accepts at h
    left
    simp only [Operand.words, List.mem_append, List.mem_cons]
    grind
  | ldgSize =>
    left
    obtain ⟨-, ⟨k, i, rfl, h, -⟩ | ⟨rfl, -⟩ | ⟨rfl, -⟩⟩ := h
    · exact List.mem_cons.2 (.inr (Entry.word h (mem_one hs)))
    · simp [Operand.words, dotted] at hs ⊢; grind
    · simp at hs
  | s2r t =>
    left
    obtain ⟨-, ⟨s', x, hm, rfl, -⟩ | ⟨rfl, -⟩ | ⟨s', x, hm, rfl, -⟩ | ⟨k, i, rfl, -, -, h, -⟩⟩ := h
    · simp [Operand.words] at hs hm ⊢; grind
    · simp [Operand.words] at hs ⊢; grind
    · simp [Operand.words] at hs hm ⊢; grind
    · simp only [Operand.words, List.mem_append]; exact .inr (Entry.plain_word h (mem_one hs))
  | atomicSize a =>
    left
    obtain ⟨-, ⟨s', x, hm, rfl, -⟩ | ⟨rfl, -⟩ | ⟨rfl, -⟩ | ⟨rfl, -⟩⟩ := h
    all_goals simp [Operand.words] at *
    all_goals grind
  | srcFormat a sg =>
    left
    obtain ⟨-, ⟨k, i, rfl, h, -⟩ | ⟨s', x, hm, rfl, -⟩ | ⟨rfl, -⟩⟩ := h
    · have := Entry.word h (s := s) (mem_one hs)
      simp [Operand.words, dotted] at this ⊢; grind
    · simp [Operand.words, dotted] at hs hm ⊢; grind
    · simp at hs
  | _ =>
    unfold Accepts at h
    left
    simp only [Operand.words, List.mem_cons]
    grind

/-- The words of a row. -/
def rowWords (row : Insn) : List Str := row.operands.flatMap Operand.words

theorem sequence_word {e : Env} {os : List Operand} {v v' : BitVec 64} {ks : List Kind} {k : Kind} {r : BitVec 32}
    (h : Sequence e os v ks k v' r) {s : Str} (hs : .ident s ∈ ks) : s ∈ os.flatMap Operand.words ∨ ∃ a, e.label s = some a := by
  induction h with
  | nil => simp at hs
  | cons h _ ih =>
    rw [List.mem_append] at hs
    rw [List.flatMap_cons, List.mem_append]
    rcases hs with hs | hs
    · rcases accepts_word h hs with h | h
      · exact .inl (.inl h)
      · exact .inr h
    · rcases ih hs with h | h
      · exact .inl (.inr h)
      · exact .inr h

/-- The words of annotations. -/
def annotWords : List Str := [c!"WAIT", c!"WB", c!"RB", c!"Y", c!"YIELD", c!"DEP"]

theorem annots_word {as : List Annot} {ks : List Kind} (h : AnnotsText as ks) {s : Str} (hs : .ident s ∈ ks) : s ∈ annotWords := by
  induction h with
  | nil => simp at hs
  | cons h _ _ ih =>
    rw [List.mem_append] at hs
    rcases hs with hs | hs
    · cases h <;> simp [annotWords] at hs ⊢ <;> simp [hs]
    · exact ih hs

/-- The words of an instruction: mnemonics, names of modifiers, words of annotations, and labels. -/
theorem instr_word {e : Env} {ks : List Kind} {op : Op} (h : InstrText e ks op) {s : Str} (hs : .ident s ∈ ks) :
    (∃ row ∈ insnTable, s = row.mnemonic ∨ s ∈ rowWords row) ∨ s ∈ annotWords ∨ ∃ a, e.label s = some a := by
  cases h with | @mk g row ks op pre post hsplit h hp
  have hin : row ∈ insnTable := by rw [hsplit]; simp
  cases h with | @mk ks ks' v r as _ ho ha
  simp only [List.mem_append, List.mem_cons, reduceCtorEq, List.not_mem_nil, or_false, Kind.ident.injEq] at hs
  rcases hs with hs | rfl | hs | hs
  · rcases g with - | ⟨p, n⟩ <;> simp [guardTokens] at hs
  · exact .inl ⟨row, hin, .inl rfl⟩
  · rcases sequence_word ho hs with h | h
    · exact .inl ⟨row, hin, .inr h⟩
    · exact .inr (.inr h)
  · exact .inr (.inl (annots_word ha hs))

theorem no_option_words : (insnTable.all fun row => optionNames.all fun n => row.mnemonic != n && (rowWords row).all (· != n)) = true := by
  decide +kernel

/-- No name of an option occurs in an instruction. -/
theorem instr_no_option {e : Env} (he : ∀ s a, e.label s = some a → IsName s) {ks : List Kind} {op : Op} (h : InstrText e ks op)
    {s : Str} (hs : s ∈ optionNames) : .ident s ∉ ks := by
  intro hm
  rcases instr_word h hm with ⟨row, hrow, h1⟩ | h1 | ⟨a, h1⟩
  · have h2 := List.all_eq_true.1 (List.all_eq_true.1 no_option_words row hrow) s hs
    simp only [Bool.and_eq_true, bne_iff_ne, ne_eq, List.all_eq_true] at h2
    rcases h1 with rfl | h1
    · exact h2.1 rfl
    · exact h2.2 s h1 rfl
  · have : ∀ n ∈ optionNames, n ∉ annotWords := by decide
    exact this s hs h1
  · obtain ⟨⟨c, cs, rfl, hc⟩, -⟩ := he s a h1
    have : ∀ n ∈ optionNames, n.head? = some '.' := by decide
    have := this _ hs
    simp only [List.head?_cons, Option.some.injEq] at this
    subst this
    revert hc
    unfold letter
    decide

/-- The semicolon is the last token of an instruction and occurs nowhere else in it. -/
theorem instr_semicolon {e : Env} {ks : List Kind} {op : Op} (h : InstrText e ks op) : ∃ ks', ks = ks' ++ [.semicolon] ∧ .semicolon ∉ ks' := by
  cases h with | @mk g row ks op pre post hsplit h hp
  refine ⟨guardTokens g ++ .ident row.mnemonic :: ks, by simp, ?_⟩
  have := rowText_no_semicolon h
  rcases g with - | ⟨p, n⟩ <;> simp [guardTokens, this]

end Nxas
