import Verif.Lemmas.Synonyms
import Verif.Lemmas.Args
import Verif.Props.Layout
import Verif.Props.Sched
/-
C66, C67 and C68: what the output says about the operands, annotations and instructions it was assembled from.
-/

namespace Nxas

open Spec

/-! ### C66 -/

/-- The operands of two instructions are the same, one by one and up to synonyms. -/
def SameOperands (code code' : Str) (i i' : Nat) (row : Insn) (args args' : List (List Kind)) : Prop :=
  args.length = row.operands.length ∧ args'.length = row.operands.length ∧
  ∃ labels labels', genLabels (visible code) = .ok labels ∧ genLabels (visible code') = .ok labels' ∧
    ∀ (j : Nat) (o : Operand) (ks ks' : List Kind), row.operands[j]? = some o → args[j]? = some ks → args'[j]? = some ks' →
      Same ⟨labels.find, addressOf i⟩ ⟨labels'.find, addressOf i'⟩ o ks ks'

/-- The word and the reuse flags determine the operands of an instruction of this row. -/
def OperandsEncoded (row : Insn) : Prop :=
  ∀ {dbg dbg' code code' i i' args args' op op'}, Instr dbg code i row args op → Instr dbg' code' i' row args' op' →
    op.value = op'.value → op.reuse = op'.reuse → SameOperands code code' i i' row args args'

/-- Operands that no other operand of the row disturbs are determined by the word and the reuse flags. -/
theorem C66_operand_partial {dbg dbg' : Bool} {code code' : Str} {i i' j : Nat} {row : Insn}
    {args args' : List (List Kind)} {op op' : Op} {o : Operand} (h : Instr dbg code i row args op)
    (h' : Instr dbg' code' i' row args' op') (hj : row.operands[j]? = some o) (hal : row.ownsAlone j = true)
    (hv : op.value = op'.value) (hr : op.reuse = op'.reuse) : ∃ ks ks' labels labels',
      args[j]? = some ks ∧ args'[j]? = some ks' ∧
      genLabels (visible code) = .ok labels ∧ genLabels (visible code') = .ok labels' ∧
      Same ⟨labels.find, addressOf i⟩ ⟨labels'.find, addressOf i'⟩ o ks ks' := by
  obtain ⟨ks, hk, ⟨labels, v, k, b, r, hl, hacc, hb, hlk⟩, hp⟩ := h.facts hj
  obtain ⟨ks', hk', ⟨labels', v', k', b', r', hl', hacc', hb', hlk'⟩, hp'⟩ := h'.facts hj
  refine ⟨ks, ks', labels, labels', hk, hk', hl, hl', ?_⟩
  unfold Insn.ownsAlone at hal
  rw [hj] at hal
  simp only [Bool.and_eq_true] at hal
  obtain ⟨⟨hread, hown⟩, hlook⟩ := hal
  have hbit : op.bit = op'.bit := by
    funext p
    unfold Op.bit
    rw [hv, hr]
  have key : ∀ p, inF o.own p → (⟨b, r, 0⟩ : Op).bit p = (⟨b', r', 0⟩ : Op).bit p := by
    intro p hpo
    have hs : row.sole j p := fun o' ho' => not_inF_of_apart (List.all_eq_true.1 hown o' ho') hpo
    rw [← hb p (own_fields o hpo) hs, ← hb' p (own_fields o hpo) hs, hbit]
  refine accepts_same hread hacc hacc' hp hp' ?_ ?_ ?_
  · intro a w haw hle
    apply bitsAt_congr
    intro p h1 h2
    have := key p ⟨_, haw, h1, h2⟩
    unfold Op.bit at this
    simpa [show p < 64 by omega] using this
  · intro q hq
    have := key (64 + q) ⟨_, hq, Nat.le_refl _, by simp⟩
    unfold Op.bit at this
    simpa using this
  · intro a w haw
    apply bitsAt_congr
    intro p h1 h2
    have hx : p < 64 ∧ ∀ o' ∈ row.operands.drop j, ¬ inF o'.fields p := by
      have hmem : o ∈ row.operands.drop j := by
        obtain ⟨hlt, rfl⟩ := List.getElem?_eq_some_iff.1 hj
        rw [List.drop_eq_getElem_cons hlt]
        exact List.mem_cons_self
      have h3 : ∀ o' ∈ row.operands.drop j, (o'.fields.all (Field.apart (a, w))) = true ∧ a + w ≤ 64 := by
        intro o' ho'
        have := List.all_eq_true.1 (List.all_eq_true.1 hlook o' ho') _ haw
        simpa using this
      refine ⟨by have := (h3 o hmem).2; omega, fun o' ho' => ?_⟩
      exact not_inF_of_apart (fs := [(a, w)]) (by rw [List.all_cons, (h3 o' ho').1]; rfl) ⟨_, List.mem_cons_self, h1, h2⟩
    rw [hlk p hx.1 hx.2, hlk' p hx.1 hx.2, hv]

theorem Instr.length {dbg : Bool} {code : Str} {i : Nat} {row : Insn} {args : List (List Kind)} {op : Op}
    (h : Instr dbg code i row args op) : args.length = row.operands.length := by
  obtain ⟨c, s, e, -, rfl, hr, -⟩ := h
  exact hr.length

theorem Instr.labels {dbg : Bool} {code : Str} {i : Nat} {row : Insn} {args : List (List Kind)} {op : Op}
    (h : Instr dbg code i row args op) : ∃ labels, genLabels (visible code) = .ok labels := by
  obtain ⟨c, s, e, hi, -⟩ := h
  exact ⟨_, hi.labels⟩

/-- The mnemonics with a row in which two operands set the same bit. -/
def sharing : List Str := [c!"IADD", c!"IADD32I", c!"IADD3", c!"ISCADD", c!"SUST", c!"VMAD", c!"VMNMX", c!"VSETP",
  c!"TEXS", c!"TLDS"]

theorem table_owns : ∀ row ∈ insnTable, row.mnemonic ∉ sharing →
    ∀ j < row.operands.length, row.ownsAlone j = true := by decide +kernel

/-- Missing: the mnemonics for which two operands set the same bit. -/
theorem C66_partial {row : Insn} (hm : row.mnemonic ∉ sharing) : OperandsEncoded row := by
  intro dbg dbg' code code' i i' args args' op op' h h' hv hr
  have hl := h.length
  have hl' := h'.length
  obtain ⟨labels, hg⟩ := h.labels
  obtain ⟨labels', hg'⟩ := h'.labels
  refine ⟨hl, hl', labels, labels', hg, hg', fun j o ks ks' hj hk hk' => ?_⟩
  obtain ⟨x, x', l, l', hx, hx', hgl, hgl', hs⟩ :=
    C66_operand_partial h h' hj (table_owns _ h.mem hm j (List.getElem?_eq_some_iff.1 hj).1) hv hr
  cases hk.symm.trans hx
  cases hk'.symm.trans hx'
  cases hg.symm.trans hgl
  cases hg'.symm.trans hgl'
  exact hs

/-- The default size and no offset are written or left out. -/
example : ∃ row op args args', row ∈ insnTable ∧ row.mnemonic ∉ sharing ∧
    Instr true c!"NOP;\nLDG R0, [R1+0x0];" 1 row args op ∧ Instr true c!"LDG.32 R0, [R1];" 0 row args' op ∧ args ≠ args' := by
  have h1 : instrArgs true c!"NOP;\nLDG R0, [R1+0x0];" 1 = some (254, [[], [], [], [.reg 0], [.comma],
    [.lbracket, .reg 1, .imm 0, .rbracket]], ⟨0xeed4000000070100, 0, 0x7e0⟩) := by decide +kernel
  have h2 : instrArgs true c!"LDG.32 R0, [R1];" 0 = some (254, [[], [], [.ident c!".32"], [.reg 0], [.comma],
    [.lbracket, .reg 1, .rbracket]], ⟨0xeed4000000070100, 0, 0x7e0⟩) := by decide +kernel
  obtain ⟨row, hn, hi⟩ := instr_of_args h1
  obtain ⟨row', hn', hi'⟩ := instr_of_args h2
  cases hn.symm.trans hn'
  have hm : ∀ row ∈ insnTable[254]?, row.mnemonic ∉ sharing := by decide +kernel
  exact ⟨row, _, _, _, hi.mem, hm row hn, hi, hi', by decide⟩

/-- The mnemonics with two rows that no fixed bit of the word tells apart. -/
def indistinct : List Str := [c!"AL2P", c!"ALD", c!"AST", c!"B2R", c!"BPT", c!"NOP", c!"MOV", c!"MOV32I", c!"ICMP", c!"LEA",
  c!"LOP3", c!"SUST", c!"SULD", c!"BRA"]

theorem table_rows : insnTable.Pairwise fun a b => a.differs b = true ∨ a.mnemonic ∈ indistinct ∧ b.mnemonic ∈ indistinct := by
  decide +kernel

/-- The word and the reuse flags determine the row and the operands of any instruction but for these mnemonics. -/
theorem C66_instruction_partial {dbg dbg' : Bool} {code code' : Str} {i i' : Nat} {row row' : Insn}
    {args args' : List (List Kind)} {op op' : Op} (h : Instr dbg code i row args op)
    (h' : Instr dbg' code' i' row' args' op') (hm : row.mnemonic ∉ sharing) (hi : row.mnemonic ∉ indistinct)
    (hv : op.value = op'.value) (hr : op.reuse = op'.reuse) :
    row = row' ∧ SameOperands code code' i i' row args args' := by
  rcases forall_pairs (R := fun a b => a = b ∨ a.differs b = true ∨ a.mnemonic ∈ indistinct ∧ b.mnemonic ∈ indistinct)
    (fun a b h => by
      rcases h with rfl | h | h
      · exact .inl rfl
      · exact .inr (.inl (by rw [b.differs_comm]; exact h))
      · exact .inr (.inr h.symm))
    (fun _ => .inl rfl) (table_rows.imp .inr) _ h.mem _ h'.mem with rfl | hd | hd
  · exact ⟨rfl, C66_partial hm h h' hv hr⟩
  · exact (h.differ h' hd hv).elim
  · exact (hi hd.1).elim

/-- The same register, once with and once without its absolute value, is told apart by the word alone. -/
example : ∃ row op args, Instr false c!"FADD.FTZ R0, |R1|, R2.reuse;" 0 row args op ∧ row.mnemonic ∉ sharing ∧
    row.mnemonic ∉ indistinct ∧ op.reuse = 2 := by
  have h1 : (instrArgs false c!"FADD.FTZ R0, |R1|, R2.reuse;" 0).map (fun x => (x.1, x.2.2.reuse)) = some (68, 2) := by decide +kernel
  simp only [Option.map_eq_some_iff, Prod.exists, Prod.mk.injEq] at h1
  obtain ⟨n, args, op, h1, rfl, hr⟩ := h1
  obtain ⟨row, hn, hi⟩ := instr_of_args h1
  have hm : ∀ row ∈ insnTable[68]?, row.mnemonic ∉ sharing ∧ row.mnemonic ∉ indistinct := by decide +kernel
  exact ⟨row, op, args, hi, (hm row hn).1, (hm row hn).2, hr⟩

/-- C66 does not hold: the sum of two negated registers is encoded like the sum plus one. -/
theorem C66_violated : (¬ ∀ row ∈ insnTable, OperandsEncoded row) ∧
    ∃ words, assemble true c!"IADD R0, -R1, -R2;" = .ok words ∧ assemble true c!"IADD.PO R0, R1, R2;" = .ok words := by
  refine ⟨fun h => ?_, [0x001f8000fc0007e0, 0x5c13000000270100, 0x50b0000000070f00, 0x50b0000000070f00], by decide +kernel,
    by decide +kernel⟩
  have h1 : instrArgs true c!"IADD R0, -R1, -R2;" 0 = some (139, [[], [], [], [.reg 0], [], [.comma], [.minus], [.reg 1],
    [.comma], [.minus], [.reg 2]], ⟨0x5c13000000270100, 0, 0x7e0⟩) := by decide +kernel
  have h2 : instrArgs true c!"IADD.PO R0, R1, R2;" 0 = some (139, [[.ident c!".PO"], [], [], [.reg 0], [], [.comma], [],
    [.reg 1], [.comma], [], [.reg 2]], ⟨0x5c13000000270100, 0, 0x7e0⟩) := by decide +kernel
  obtain ⟨row, hn, hi⟩ := instr_of_args h1
  obtain ⟨row', hn', hi'⟩ := instr_of_args h2
  cases hn.symm.trans hn'
  obtain ⟨-, -, labels, labels', -, -, hs⟩ := h row hi.mem hi hi' rfl rfl
  have h0 : ∀ row ∈ insnTable[139]?, row.operands[0]? = some (.po 48 49) := by decide +kernel
  have := hs 0 _ _ _ (h0 row hn) rfl rfl
  simp [Same] at this

/-- Without assertions there is another witness: `.BA` of `SUST.D` is the bit that `.D` sets. -/
theorem C66_violated_release : ∃ words, assemble false c!"SUST.D.BA.2D.TRAP [R1], R2, 0x3;" = .ok words ∧
    assemble false c!"SUST.D.2D.TRAP [R1], R2, 0x3;" = .ok words ∧
    assemble true c!"SUST.D.BA.2D.TRAP [R1], R2, 0x3;" = .abort :=
  ⟨[0x001f8000fc0007e0, 0xeb3c003600470102, 0x50b0000000070f00, 0x50b0000000070f00], by decide +kernel, by decide +kernel,
    by decide +kernel⟩

/-! ### C67 -/

theorem given_mem {f : Annot → Option Nat} {d n : Nat} {as : List Annot} {a : Annot} (ha : a ∈ as) (hf : f a = some n)
    (hu : ∀ b ∈ as, ∀ m, f b = some m → m = n) : given f d as = n := by
  unfold given
  cases h : as.findSome? f with
  | none => rw [List.findSome?_eq_none_iff.1 h a ha] at hf; cases hf
  | some m =>
    obtain ⟨b, hb, hm⟩ := List.exists_of_findSome?_eq_some h
    exact hu b hb m hm

theorem given_ne {f : Annot → Option Nat} {d : Nat} {as : List Annot} (hn : given f d as ≠ d) :
    ∃ a ∈ as, f a = some (given f d as) := by
  unfold given at hn ⊢
  cases h : as.findSome? f with
  | none => simp [h] at hn
  | some m =>
    obtain ⟨b, hb, hm⟩ := List.exists_of_findSome?_eq_some h
    exact ⟨b, hb, hm⟩

theorem annots_eq {as : List Annot} {ks : List Kind} (h : AnnotsText as ks) {a b : Annot} (ha : a ∈ as) (hb : b ∈ as)
    (hc : a.clash b = true) : a = b := by
  obtain ⟨-, -, -, hp⟩ := annotsText_iff.1 h
  rcases forall_pairs (R := fun a b => a = b ∨ a.clash b = false)
    (fun x y h => by rw [clash_comm]; exact h.imp_left Eq.symm) (fun _ => .inl rfl) (hp.imp .inr) a ha b hb with h1 | h1
  · exact h1
  · rw [hc] at h1; cases h1

/-- The annotations other than `@WAIT 0` can be read from the scheduling bits. -/
theorem annot_mem {as : List Annot} {ks : List Kind} (h : AnnotsText as ks) (a : Annot) (ha : a ≠ .wait 0) :
    a ∈ as ↔ (∃ ks, a.Text ks) ∧ match (generalizing := false) a with
      | .wait n => stall as = n
      | .wb n => writeBarrier as = n
      | .rb n => readBarrier as = n
      | .yield => bit (.yield ∈ as) = 1
      | .dep n => .dep n ∈ as := by
  obtain ⟨bs, -, hb, -⟩ := annotsText_iff.1 h
  constructor
  · intro hm
    refine ⟨hb.text a hm, ?_⟩
    cases a with
    | wait n =>
      refine given_mem hm rfl fun b hb m hf => ?_
      cases b <;> simp at hf
      subst hf
      simpa using annots_eq h hb hm rfl
    | wb n =>
      refine given_mem hm rfl fun b hb m hf => ?_
      cases b <;> simp at hf
      subst hf
      simpa using annots_eq h hb hm rfl
    | rb n =>
      refine given_mem hm rfl fun b hb m hf => ?_
      cases b <;> simp at hf
      subst hf
      simpa using annots_eq h hb hm rfl
    | yield => simp [bit, hm]
    | dep n => exact hm
  · rintro ⟨⟨ks, ht⟩, hv⟩
    cases a with
    | wait n =>
      have hn : n ≠ 0 := fun h => ha (by rw [h])
      obtain ⟨b, hb, hf⟩ := given_ne (as := as) (d := 0) (f := fun | .wait n => some n | _ => none) (by change stall as ≠ 0; omega)
      cases b <;> simp at hf
      rename_i m
      rwa [show n = m from hv.symm.trans hf.symm]
    | wb n =>
      have hn : n ≤ 5 := by cases ht; assumption
      obtain ⟨b, hb, hf⟩ := given_ne (as := as) (d := 7) (f := fun | .wb n => some n | _ => none) (by change writeBarrier as ≠ 7; omega)
      cases b <;> simp at hf
      rename_i m
      rwa [show n = m from hv.symm.trans hf.symm]
    | rb n =>
      have hn : n ≤ 5 := by cases ht; assumption
      obtain ⟨b, hb, hf⟩ := given_ne (as := as) (d := 7) (f := fun | .rb n => some n | _ => none) (by change readBarrier as ≠ 7; omega)
      cases b <;> simp at hf
      rename_i m
      rwa [show n = m from hv.symm.trans hf.symm]
    | yield =>
      simp only [bit] at hv
      split at hv
      · simp_all
      · omega
    | dep n => exact hv

theorem annots_nodup {as : List Annot} {ks : List Kind} (h : AnnotsText as ks) : as.Nodup := by
  obtain ⟨-, -, -, hp⟩ := annotsText_iff.1 h
  refine hp.imp fun {a b} hc heq => ?_
  subst heq
  cases a <;> simp [Annot.clash] at hc

/-- C67. Annotations with the same scheduling bits are the same but for their order and `@WAIT 0`. -/
theorem C67_annotations {as as' : List Annot} {ks ks' : List Kind} (h : AnnotsText as ks) (h' : AnnotsText as' ks')
    (hs : schedBits as = schedBits as') : (as.filter (· ≠ .wait 0)).Perm (as'.filter (· ≠ .wait 0)) := by
  obtain ⟨-, h1, h2, h3, h4, h5⟩ := C37_fields h
  obtain ⟨-, h1', h2', h3', h4', h5'⟩ := C37_fields h'
  rw [List.perm_ext_iff_of_nodup ((annots_nodup h).filter _) ((annots_nodup h').filter _)]
  intro a
  rw [List.mem_filter, List.mem_filter]
  refine and_congr_left fun ha => ?_
  simp only [ne_eq, decide_not, Bool.not_eq_eq_eq_not, Bool.not_true, decide_eq_false_iff_not] at ha
  rw [annot_mem h a ha, annot_mem h' a ha]
  refine and_congr_right fun ⟨ks, ht⟩ => ?_
  cases a with
  | wait n => rw [← h1, ← h1', hs]
  | wb n => rw [← h3, ← h3', hs]
  | rb n => rw [← h4, ← h4', hs]
  | yield => dsimp only; rw [← h2, ← h2', hs]
  | dep n =>
    have hn : n ≤ 5 := by cases ht; assumption
    have := h5 n (by omega)
    rw [hs, h5' n (by omega), decide_eq_decide] at this
    exact this.symm

/-- C67. Two accepted instructions, of whatever sources and builds, with the same scheduling bits have the same
    annotations but for their order and `@WAIT 0`. -/
theorem C67_instructions {dbg dbg' : Bool} {code code' : Str} {i i' : Nat} {c c' : Ctx} {s s' : St}
    (h : InstrAt dbg code i c s) (h' : InstrAt dbg' code' i' c' s') (hs : s.op.sched = s'.op.sched) :
    ∃ front anns as front' anns' as',
      Reads c.cur (front ++ anns ++ [.semicolon]) s.ctx.cur ∧ AnnotsText as anns ∧
      Reads c'.cur (front' ++ anns' ++ [.semicolon]) s'.ctx.cur ∧ AnnotsText as' anns' ∧
      s.op.sched = BitVec.ofNat 32 (schedBits as) ∧
      (as.filter (· ≠ .wait 0)).Perm (as'.filter (· ≠ .wait 0)) := by
  obtain ⟨opts, g, name, ks, anns, as, h1, -, h2, h3⟩ := C37_annotations h
  obtain ⟨opts', g', name', ks', anns', as', h1', -, h2', h3'⟩ := C37_annotations h'
  refine ⟨opts ++ (guardTokens g ++ .ident name :: ks), anns, as, opts' ++ (guardTokens g' ++ .ident name' :: ks'), anns', as',
    by simpa using h1, h2, by simpa using h1', h2', h3, C67_annotations h2 h2' ?_⟩
  have h4 := (C37_fields h2).1
  have h4' := (C37_fields h2').1
  rw [h3, h3', ← BitVec.toNat_inj, BitVec.toNat_ofNat, BitVec.toNat_ofNat, Nat.mod_eq_of_lt (by omega),
    Nat.mod_eq_of_lt (by omega)] at hs
  exact hs

example : schedBits [.wait 0, .dep 5, .wb 2] = schedBits [.wb 2, .dep 5] ∧ schedBits [.wait 1] ≠ schedBits [.wait 2] := by
  decide
example : (instr true c!"NOP @WAIT 0 @DEP 5 @WB 2;" 0).map (·.2.op.sched) =
    (instr false c!"NOP; NOP @WB 2 @DEP 5;" 1).map (·.2.op.sched) := by decide +kernel

/-! ### C68 -/

/-- The scheduling data of slot `i`, read from the code. -/
theorem slot_sched {ops : List Op} (hr : ∀ o ∈ ops, o.Ranged) {i : Nat} (hi : i < 3 * ((ops.length + 2) / 3)) :
    ((emit ops)[4 * (i / 3)]?.map fun w => w.toNat / 2 ^ (21 * (i % 3)) % 2 ^ 21) = some (schedData ops[i]?) := by
  rw [emit_control ops _ (by omega), Option.map_some, controlWord_toNat hr, Option.some.injEq]
  have h0 := schedData_lt hr (3 * (i / 3))
  have h1 := schedData_lt hr (3 * (i / 3) + 1)
  have h2 := schedData_lt hr (3 * (i / 3) + 2)
  have hm : i % 3 = 0 ∨ i % 3 = 1 ∨ i % 3 = 2 := by omega
  rcases hm with hm | hm | hm
  · have e : 3 * (i / 3) = i := by omega
    rw [e] at h0 h1 h2 ⊢
    rw [hm]
    omega
  · have e : 3 * (i / 3) + 1 = i := by omega
    rw [e] at h1 ⊢
    rw [hm]
    omega
  · have e : 3 * (i / 3) + 2 = i := by omega
    rw [e] at h2 ⊢
    rw [hm]
    omega

/-- The word of slot `i`, read from the code. -/
theorem slot_value {ops : List Op} {i : Nat} (hi : i < 3 * ((ops.length + 2) / 3)) :
    (emit ops)[i + i / 3 + 1]? = some (match ops[i]? with | some o => o.value | none => 0x50B0000000070F00#64) := by
  by_cases h : i < ops.length
  · rw [emit_value ops i h, List.getElem?_eq_getElem h]
  · rw [emit_padding ops i (by omega) hi, List.getElem?_eq_none (by omega)]
    rfl

/-- What is in a slot: an instruction or the filler. -/
def slotOp (o : Option Op) : Op := o.getD ⟨0x50B0000000070F00, 0, 0x7E0⟩

theorem slots_eq {ops ops' : List Op} (hr : ∀ o ∈ ops, o.Ranged) (hr' : ∀ o ∈ ops', o.Ranged) (h : emit ops = emit ops') (i : Nat) :
    slotOp ops[i]? = slotOp ops'[i]? := by
  have hl : (ops.length + 2) / 3 = (ops'.length + 2) / 3 := by
    have := congrArg List.length h
    rw [emit_length, emit_length] at this
    omega
  by_cases hi : i < 3 * ((ops.length + 2) / 3)
  · have h1 := slot_sched hr hi
    have h2 := slot_sched hr' (hl ▸ hi)
    have h3 := slot_value hi
    have h4 := slot_value (hl ▸ hi : i < 3 * ((ops'.length + 2) / 3))
    rw [h, h2, Option.some.injEq] at h1
    rw [h, h4, Option.some.injEq] at h3
    have key : ∀ {l : List Op} {o : Op}, (∀ o ∈ l, o.Ranged) → l[i]? = some o → o.sched.toNat < 2 ^ 17 ∧ o.reuse.toNat < 8 :=
      fun hl hm => ⟨(hl _ (List.mem_of_getElem? hm)).sched, (hl _ (List.mem_of_getElem? hm)).reuse⟩
    cases h5 : ops[i]? with
    | none =>
      cases h6 : ops'[i]? with
      | none => rfl
      | some o' =>
        rw [h5, h6] at h1 h3
        obtain ⟨k1, k2⟩ := key hr' h6
        simp only [schedData] at h1 h3
        simp only [slotOp, Option.getD_none, Option.getD_some]
        obtain ⟨v, r, sc⟩ := o'
        simp only [Op.mk.injEq] at *
        refine ⟨h3.symm, ?_, ?_⟩ <;> apply BitVec.eq_of_toNat_eq <;> simp <;> omega
    | some o =>
      obtain ⟨k3, k4⟩ := key hr h5
      cases h6 : ops'[i]? with
      | none =>
        rw [h5, h6] at h1 h3
        simp only [schedData] at h1 h3
        simp only [slotOp, Option.getD_none, Option.getD_some]
        obtain ⟨v, r, sc⟩ := o
        simp only [Op.mk.injEq] at *
        refine ⟨h3.symm, ?_, ?_⟩ <;> apply BitVec.eq_of_toNat_eq <;> simp <;> omega
      | some o' =>
        obtain ⟨k1, k2⟩ := key hr' h6
        rw [h5, h6] at h1 h3
        simp only [schedData] at h1 h3
        simp only [slotOp, Option.getD_some]
        obtain ⟨v, r, sc⟩ := o
        obtain ⟨v', r', sc'⟩ := o'
        simp only [Op.mk.injEq] at *
        refine ⟨h3.symm, ?_, ?_⟩ <;> apply BitVec.eq_of_toNat_eq <;> omega
  · rw [List.getElem?_eq_none (by omega), List.getElem?_eq_none (by omega)]

/-- C68. If two sources give the same raw output, their instructions at the same index have the same word, reuse flags
    and scheduling bits, and the instructions that only one of them has are `NOP`s like those that fill the last group. -/
theorem C68_slots {dbg dbg' : Bool} {code code' : Str} {words : List (BitVec 64)} (hd : ¬ c!".dksh" <:+: visible code)
    (hd' : ¬ c!".dksh" <:+: visible code') (h : assemble dbg code = .ok words) (h' : assemble dbg' code' = .ok words) :
    (∀ i c s c' s', InstrAt dbg code i c s → InstrAt dbg' code' i c' s' → s.op = s'.op) ∧
    ∀ i c s, InstrAt dbg code i c s → (∀ c' s', ¬ InstrAt dbg' code' i c' s') →
      s.op = ⟨0x50B0000000070F00, 0, 0x7E0⟩ := by
  obtain ⟨ops, ctx, h1, h2, -⟩ := assemble_raw hd h
  obtain ⟨ops', ctx', h1', h2', -⟩ := assemble_raw hd' h'
  obtain ⟨ls, -, hr⟩ := id h1
  obtain ⟨ls', -, hr'⟩ := id h1'
  have hs := slots_eq hr.ranged hr'.ranged (h2.symm.trans h2')
  constructor
  · intro i c s c' s' hi hi'
    have := hs i
    rw [hi.decoded h1, hi'.decoded h1'] at this
    exact this
  · intro i c s hi hno
    have := hs i
    rw [hi.decoded h1] at this
    by_cases hlt : i < ops'.length
    · obtain ⟨c', s', hi', -⟩ := h1'.at i hlt
      exact (hno c' s' hi').elim
    · rw [List.getElem?_eq_none (by omega)] at this
      exact this

/-- C66. If two sources give the same raw output, their instructions at the same index have the same row and operands,
    but for the mnemonics whose rows or operands share bits. -/
theorem C66_program_partial {dbg dbg' : Bool} {code code' : Str} {words : List (BitVec 64)}
    (hd : ¬ c!".dksh" <:+: visible code) (hd' : ¬ c!".dksh" <:+: visible code') (h : assemble dbg code = .ok words)
    (h' : assemble dbg' code' = .ok words) {i : Nat} {row row' : Insn} {args args' : List (List Kind)} {op op' : Op}
    (hi : Instr dbg code i row args op) (hi' : Instr dbg' code' i row' args' op') (hm : row.mnemonic ∉ sharing)
    (hn : row.mnemonic ∉ indistinct) : row = row' ∧ op = op' ∧ SameOperands code code' i i row args args' := by
  obtain ⟨c, s, e, hat, he, hran, hop⟩ := id hi
  obtain ⟨c', s', e', hat', he', hran', hop'⟩ := id hi'
  have heq : op = op' := by
    rw [← hop, ← hop']
    exact (C68_slots hd hd' h h').1 i c s c' s' hat hat'
  obtain ⟨h1, h2⟩ := C66_instruction_partial hi hi' hm hn (by rw [heq]) (by rw [heq])
  exact ⟨h1, heq, h2⟩

/-- A source with one instruction and a source with two. -/
example : assemble true c!"FADD R0, R1, R2.reuse @WAIT 2 @Y;" =
    .ok [0x001f8000fc0407f2, 0x5c58000000270100, 0x50b0000000070f00, 0x50b0000000070f00] ∧
    assemble false c!"foo:\n  FADD R0 , R1,R2.reuse @YIELD @WAIT 0x2; @PT NOP @WAIT 0;" =
    .ok [0x001f8000fc0407f2, 0x5c58000000270100, 0x50b0000000070f00, 0x50b0000000070f00] := by decide +kernel
example : ¬ c!".dksh" <:+: visible c!"foo:\n  FADD R0 , R1,R2.reuse @YIELD @WAIT 0x2; @PT NOP @WAIT 0;" := by decide +kernel

end Nxas
