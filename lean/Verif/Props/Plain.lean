import Verif.Lemmas.Groups
import Verif.Props.Synonyms
/-
C66 for the mnemonics whose operands share bits: the combinations of operands that other operands encode as well, and that
there are no others.
-/

namespace Nxas

open Spec

/-- C66 for all rows of the table. Missing: instructions that make use of one of the combinations listed in `Plain`, for each
    of which `C66_collisions` gives a second instruction with the same word. -/
theorem C66_plain_partial {dbg dbg' : Bool} {code code' : Str} {i i' : Nat} {row : Insn} {args args' : List (List Kind)}
    {op op' : Op} (h : Instr dbg code i row args op) (h' : Instr dbg' code' i' row args' op')
    (hp : Plain row.operands args) (hp' : Plain row.operands args') (hv : op.value = op'.value)
    (hr : op.reuse = op'.reuse) : SameOperands code code' i i' row args args' := by
  have hl := h.length
  have hl' := h'.length
  obtain ⟨labels, W, B, R, K, hg, hP, hW, hz⟩ := h.parts
  obtain ⟨labels', W', B', R', K', hg', hP', hW', hz'⟩ := h'.parts
  have ht : Twins row args args' ⟨labels.find, addressOf i⟩ ⟨labels'.find, addressOf i'⟩ W W' B B' R R' K K' :=
    ⟨hP, hP', fun p => by rw [hW, hW']; unfold Op.bit; rw [hv, hr], hz, hz', hl, hl', hp, hp'⟩
  refine ⟨hl, hl', labels, labels', hg, hg', fun j o ks ks' hj hk hk' => ?_⟩
  rcases table_groups row h.mem j (List.getElem?_eq_some_iff.1 hj).1 with hal | hgr
  · obtain ⟨x, x', l, l', hx, hx', hgl, hgl', hs⟩ := C66_operand_partial h h' hj hal hv hr
    cases hk.symm.trans hx
    cases hk'.symm.trans hx'
    cases hg.symm.trans hgl
    cases hg'.symm.trans hgl'
    exact hs
  · simp only [List.any_eq_true, Bool.and_eq_true, List.contains_iff_mem] at hgr
    obtain ⟨g, -, hc, hm⟩ := hgr
    exact ht.group hc hm hj hk hk'

/-- The same for the whole instruction, but for the mnemonics whose rows share all fixed bits. -/
theorem C66_instruction_plain_partial {dbg dbg' : Bool} {code code' : Str} {i i' : Nat} {row row' : Insn}
    {args args' : List (List Kind)} {op op' : Op} (h : Instr dbg code i row args op)
    (h' : Instr dbg' code' i' row' args' op') (hi : row.mnemonic ∉ indistinct) (hp : Plain row.operands args)
    (hp' : Plain row'.operands args') (hv : op.value = op'.value) (hr : op.reuse = op'.reuse) :
    row = row' ∧ SameOperands code code' i i' row args args' := by
  rcases forall_pairs (R := fun a b => a = b ∨ a.differs b = true ∨ a.mnemonic ∈ indistinct ∧ b.mnemonic ∈ indistinct)
    (fun a b h => by
      rcases h with rfl | h | h
      · exact .inl rfl
      · exact .inr (.inl (by rw [b.differs_comm]; exact h))
      · exact .inr (.inr h.symm))
    (fun _ => .inl rfl) (table_rows.imp .inr) _ h.mem _ h'.mem with rfl | hd | hd
  · exact ⟨rfl, C66_plain_partial h h' hp hp' hv hr⟩
  · exact (h.differ h' hd hv).elim
  · exact (hi hd.1).elim

/-- If two sources give the same raw output, their instructions at the same index have the same row and operands, but for
    the combinations listed in `Plain` and the mnemonics whose rows share all fixed bits. -/
theorem C66_program_plain_partial {dbg dbg' : Bool} {code code' : Str} {words : List (BitVec 64)}
    (hd : ¬ c!".dksh" <:+: visible code) (hd' : ¬ c!".dksh" <:+: visible code') (h : assemble dbg code = .ok words)
    (h' : assemble dbg' code' = .ok words) {i : Nat} {row row' : Insn} {args args' : List (List Kind)} {op op' : Op}
    (hi : Instr dbg code i row args op) (hi' : Instr dbg' code' i row' args' op') (hn : row.mnemonic ∉ indistinct)
    (hp : Plain row.operands args) (hp' : Plain row'.operands args') :
    row = row' ∧ op = op' ∧ SameOperands code code' i i row args args' := by
  obtain ⟨c, s, e, hat, he, hran, hop⟩ := id hi
  obtain ⟨c', s', e', hat', he', hran', hop'⟩ := id hi'
  have heq : op = op' := by
    rw [← hop, ← hop']
    exact (C68_slots hd hd' h h').1 i c s c' s' hat hat'
  obtain ⟨h1, h2⟩ := C66_instruction_plain_partial hi hi' hn hp hp' (by rw [heq]) (by rw [heq])
  exact ⟨h1, heq, h2⟩

/-! ### Examples -/

/-- `Plain`, by evaluation. -/
def plainCheck (os : List Operand) (args : List (List Kind)) : Bool :=
  (List.range os.length).all fun j => (List.range os.length).all fun j' =>
    match os[j]?, os[j']?, args[j]?, args[j']? with
    | some o, some o', some ks, some ks' =>
      (!os.any (fun o => match o with | .po _ _ => true | _ => false) || j == j' || !isSign o || !isSign o' || ks == [] || ks' == []) &&
      (match o, o' with
      | .srcFormat _ _, .selector _ _ _ _ _ => ks != [.ident c!"."] &&
        (!decide (meant [.ident c!".S32"] ks ∈ [[Kind.ident c!".S32"], [.ident c!".U32"]]) ||
          !decide (ks' ∈ [[Kind.ident c!".B2"], [.ident c!".B3"]]))
      | .dotTable none _ _, .bop _ => ks != [.ident c!"."]
      | .uimmExtended, .gpr 39 => ks != [.imm 0x100000]
      | .flag s _, .expect t _ _ => !(s == c!".BA" && t == c!".D") || ks != [.ident c!".BA"]
      | .tldsType _, _ => !decide (ks ∈ [[Kind.ident c!"3D"], [.ident c!"ARRAY_2D"]]) || !args.contains [.ident c!".LL"]
      | _, _ => true)
    | _, _, _, _ => true

theorem plain_of_check {os : List Operand} {args : List (List Kind)} (hl : args.length = os.length)
    (h : plainCheck os args = true) : Plain os args := by
  have key : ∀ {j j' : Nat} {o o' : Operand} {ks ks' : List Kind}, os[j]? = some o → os[j']? = some o' → args[j]? = some ks →
      args[j']? = some ks' →
      (!os.any (fun o => match o with | .po _ _ => true | _ => false) || j == j' || !isSign o || !isSign o' || ks == [] || ks' == []) = true ∧
      (match o, o' with
      | .srcFormat _ _, .selector _ _ _ _ _ => ks != [.ident c!"."] &&
        (!decide (meant [.ident c!".S32"] ks ∈ [[Kind.ident c!".S32"], [.ident c!".U32"]]) ||
          !decide (ks' ∈ [[Kind.ident c!".B2"], [.ident c!".B3"]]))
      | .dotTable none _ _, .bop _ => ks != [.ident c!"."]
      | .uimmExtended, .gpr 39 => ks != [.imm 0x100000]
      | .flag s _, .expect t _ _ => !(s == c!".BA" && t == c!".D") || ks != [.ident c!".BA"]
      | .tldsType _, _ => !decide (ks ∈ [[Kind.ident c!"3D"], [.ident c!"ARRAY_2D"]]) || !args.contains [.ident c!".LL"]
      | _, _ => true) = true := by
    intro j j' o o' ks ks' h1 h2 h3 h4
    have l1 := (List.getElem?_eq_some_iff.1 h1).1
    have l2 := (List.getElem?_eq_some_iff.1 h2).1
    have := List.all_eq_true.1 (List.all_eq_true.1 h j (by simpa using l1)) j' (by simpa using l2)
    rw [h1, h2, h3, h4] at this
    simpa only [Bool.and_eq_true] using this
  have arg : ∀ {o : Operand}, o ∈ os → ∃ (j : Nat) (ks : List Kind), os[j]? = some o ∧ args[j]? = some ks := by
    intro o ho
    obtain ⟨j, hj, rfl⟩ := List.getElem_of_mem ho
    exact ⟨j, args[j]'(by omega), List.getElem?_eq_getElem hj, List.getElem?_eq_getElem _⟩
  refine ⟨?_, ?_, ?_, ?_, ?_, ?_⟩
  · rintro ⟨a, b, hab⟩ j j' o o' ks ks' hne h1 h2 s1 s2 h3 h4
    have hpo : os.any (fun o => match o with | .po _ _ => true | _ => false) = true := List.any_eq_true.2 ⟨_, hab, rfl⟩
    have := (key h1 h2 h3 h4).1
    simpa [hpo, hne, s1, s2] using this
  · intro j j' a b c short x y ks ks' h1 h2 h3 h4
    have := (key h1 h2 h3 h4).2
    simp only [Bool.and_eq_true, bne_iff_ne, Bool.or_eq_true, Bool.not_eq_true', decide_eq_false_iff_not] at this
    exact ⟨this.1, fun h => this.2.resolve_left (fun hn => hn h)⟩
  · intro j a b t h1 hb h3
    obtain ⟨j', ks', h2, h4⟩ := arg hb
    have := (key h1 h2 h3 h4).2
    simp at this
  · intro j h1 hb h3
    obtain ⟨j', ks', h2, h4⟩ := arg hb
    have := (key h1 h2 h3 h4).2
    simp at this
  · intro j a pre post h1 hb _ h3
    obtain ⟨j', ks', h2, h4⟩ := arg hb
    have := (key h1 h2 h3 h4).2
    simp at this
  · intro j a s h1 h3 hs hm
    have := (key h1 h1 h3 h3).2
    simp only [Bool.or_eq_true, Bool.not_eq_true', decide_eq_false_iff_not] at this
    rcases this with h | h
    · apply h
      simpa using hs
    · rw [List.contains_iff_mem.2 hm] at h
      cases h

/-- A sum plus one, and parts of registers of 8 and 16 bits. -/
example : ∃ row op args args', Instr true c!"VMAD.U8.S16.PO R0, R1.B2, R2.H1, R3;" 0 row args op ∧
    Instr true c!"NOP;\nVMAD.U8.S16.PO. R0, R1.B2, R2.H1, R3;" 1 row args' op ∧ args ≠ args' ∧
    Plain row.operands args ∧ Plain row.operands args' := by
  have h1 : instrArgs true c!"VMAD.U8.S16.PO R0, R1.B2, R2.H1, R3;" 0 = some (230, [[.ident c!".U8"], [.ident c!".S16"],
    [.ident c!".PO"], [], [], [.reg 0], [], [.comma], [], [.reg 1], [.ident c!".B2"], [.comma], [.reg 2], [.ident c!".H1"],
    [.comma], [], [.reg 3]], ⟨0x5f6601a050270100, 0, 0x7e0⟩) := by decide +kernel
  have h2 : instrArgs true c!"NOP;\nVMAD.U8.S16.PO. R0, R1.B2, R2.H1, R3;" 1 = some (230, [[.ident c!".U8"], [.ident c!".S16"],
    [.ident c!".PO"], [.ident c!"."], [], [.reg 0], [], [.comma], [], [.reg 1], [.ident c!".B2"], [.comma], [.reg 2],
    [.ident c!".H1"], [.comma], [], [.reg 3]], ⟨0x5f6601a050270100, 0, 0x7e0⟩) := by decide +kernel
  obtain ⟨row, hn, hi⟩ := instr_of_args h1
  obtain ⟨row', hn', hi'⟩ := instr_of_args h2
  cases hn.symm.trans hn'
  have hc : ∀ row ∈ insnTable[230]?, plainCheck row.operands [[.ident c!".U8"], [.ident c!".S16"],
      [.ident c!".PO"], [], [], [.reg 0], [], [.comma], [], [.reg 1], [.ident c!".B2"], [.comma], [.reg 2], [.ident c!".H1"],
      [.comma], [], [.reg 3]] = true ∧ plainCheck row.operands [[.ident c!".U8"], [.ident c!".S16"],
      [.ident c!".PO"], [.ident c!"."], [], [.reg 0], [], [.comma], [], [.reg 1], [.ident c!".B2"], [.comma], [.reg 2],
      [.ident c!".H1"], [.comma], [], [.reg 3]] = true := by decide +kernel
  exact ⟨row, _, _, _, hi, hi', by decide, plain_of_check hi.length (hc row hn).1, plain_of_check hi'.length (hc row hn).2⟩

/-- The result is an output. -/
def isOutput {α : Type} : Res α → Bool
  | .ok _ => true
  | _ => false

/-- C66 does not hold for the combinations listed in `Plain`: in each line, the two instructions are of the same row and
    have the same word, whether or not assertions are enabled. -/
theorem C66_collisions : ∀ p ∈ [
      (c!"IADD R0, -R1, -R2;", c!"IADD.PO R0, R1, R2;"),
      (c!"VMNMX. .S32 R0, R1, R2, R3;", c!"VMNMX.S8.S32 R0, R1.B2, R2, R3;"),
      (c!"VSETP. .AND P0, PT, R1, R2, PT;", c!"VSETP.F.OR P0, PT, R1, R2, PT;"),
      (c!"IADD3 R0, R1, 0x100000, R2;", c!"IADD3 R0, R1, 0x80000, R3;"),
      (c!"TLDS.LL R0, R4, R1, R2, 0x3, 3D, RGBA;", c!"TLDS.LZ R0, R4, R1, R2, 0x3, 3D, RGBA;")],
    ∀ dbg, p.1 ≠ p.2 ∧ isOutput (assemble dbg p.1) = true ∧ assemble dbg p.1 = assemble dbg p.2 := by
  decide +kernel

/-- The same without assertions, which the first instruction of each line would violate. -/
theorem C66_collisions_release : ∀ p ∈ [
      (c!"IADD.PO R0, -R1, R2;", c!"IADD.PO R0, R1, R2;"),
      (c!"VMNMX R0, R1.B2, R2, R3;", c!"VMNMX R0, R1, R2, R3;"),
      (c!"IADD3 R0, R1, 0x100000, R3;", c!"IADD3 R0, R1, 0x80000, R3;"),
      (c!"SUST.D.BA.2D.TRAP [R1], R2, 0x3;", c!"SUST.D.2D.TRAP [R1], R2, 0x3;")],
    isOutput (assemble false p.1) = true ∧ assemble false p.1 = assemble false p.2 ∧ assemble true p.1 = .abort := by
  decide +kernel

end Nxas
