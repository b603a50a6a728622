import Verif.Lemmas.Readback
/-
C20, C21, C27 to C31, C35 and C36: what the operands of an accepted instruction were, read back from its word.
-/

namespace Nxas

open Spec

variable {dbg : Bool} {code : Str} {i : Nat} {op : Op} {ks : List Kind}

/-- An operand that is a single token. -/
theorem run_single {o : Operand} (ho : o.grammatical = true) (hc : clears o = 0) {P : Env → Kind → BitVec 64 → Prop}
    (ha : ∀ e v ks k' b r, Accepts e v o ks k' b r ↔ r = 0 ∧ ∃ k, ks = [k] ∧ P e k b)
    {s s' : St} {c0 : Cur} (hs : tokenize c0 = .ok s.tok s.ctx.cur) :
    o.run false s = .ok () s' ↔
      ∃ b t c, P s.ctx.env s.tok.kind b ∧ tokenize s.ctx.cur = .ok t c ∧ s' = s.put b 0 t c := by
  rw [o.run_iff ho s (tokenize_proper hs), hc]
  constructor
  · rintro ⟨ks, b, r, t, c, hp, hacc, rfl⟩
    obtain ⟨rfl, k, rfl, h⟩ := (ha ..).1 hacc
    obtain ⟨rfl, t1, c1, h1, rfl, rfl⟩ := hp
    exact ⟨b, _, _, h, h1, St.set_zero ..⟩
  · rintro ⟨b, t, c, h, h1, rfl⟩
    exact ⟨[s.tok.kind], b, 0, t, c, ⟨rfl, t, c, h1, rfl, rfl⟩, (ha ..).2 ⟨rfl, _, rfl, h⟩, (St.set_zero ..).symm⟩

/-! ### C27: unsigned immediates -/

/-- C27. An unsigned immediate accepts exactly the literals from 0 to its maximum; it consumes that token
    and adds the value at its position, nothing else. -/
theorem C27_accepts {m : Int} {a : Nat} {s s' : St} {c0 : Cur} (hs : tokenize c0 = .ok s.tok s.ctx.cur) :
    (Operand.uint m a).run false s = .ok () s' ↔
      ∃ (x : Nat) (t : Token) (c : Cur), s.tok.kind = .imm x ∧ (x : Int) ≤ m ∧ tokenize s.ctx.cur = .ok t c ∧
        s' = s.put (field a x) 0 t c := by
  rw [run_single rfl rfl (P := fun _ k b => ∃ x : Nat, k = .imm x ∧ (x : Int) ≤ m ∧ b = field a x) (by
    intro e v ks k' b r
    constructor
    · rintro ⟨h, x, h1, h2, h3⟩; exact ⟨h, _, h1, x, rfl, h2, h3⟩
    · rintro ⟨h, k, h1, x, rfl, h2, h3⟩; exact ⟨h, x, h1, h2, h3⟩) hs]
  constructor
  · rintro ⟨b, t, c, ⟨x, h1, h2, rfl⟩, h3, h4⟩; exact ⟨x, t, c, h1, h2, h3, h4⟩
  · rintro ⟨x, t, c, h1, h2, h3, h4⟩; exact ⟨_, t, c, ⟨x, h1, h2, rfl⟩, h3, h4⟩

/-- C27. The value of an unsigned immediate is in range and can be read back from its field. -/
theorem C27_stored {m : Int} {a : Nat} (h : HasOperand dbg code i (.uint m a) ks op) :
    ∃ x : Nat, ks = [.imm x] ∧ (x : Int) ≤ m ∧ bitsAt op.value a (width m.toNat) = x := by
  obtain ⟨hin, e, v, k', b, r, d⟩ := h.decoded rfl
  obtain ⟨rfl, x, rfl, hx, rfl⟩ := d.accepts
  simp only [Operand.inside, decide_eq_true_eq] at hin
  refine ⟨x, rfl, hx, ?_⟩
  rw [d.bits a _ (by simp [Operand.fields]) hin, bitsAt_field (lt_width (by omega)) hin]

example : ∃ ks op, HasOperand true c!"MOV R1, R2, 0x5;" 0 (.uint 15 39) ks op ∧ op.value = 0x5c98028000270001#64 :=
  opCheck_has (j := 4) (by decide +kernel)
example : bitsAt 0x5c98028000270001#64 39 (width (15 : Int).toNat) = 5 := by decide

/-- The largest value of the largest field. -/
example : ∃ ks op, HasOperand true c!"MOV32I R1, 0xffffffff;" 0 (.uint 0xffffffff 20) ks op ∧
    op.value = 0x010ffffffff7f001#64 := opCheck_has (j := 2) (by decide +kernel)
example : assemble true c!"MOV32I R1, 0x100000000;" = .exit (.located ⟨0, 11, ⟨"integer \x1b[1m%d\x1b[0m is out of range, expected to be from %ld to %ld inclusively", [.long 0x100000000, .long 0, .long 0xFFFFFFFF]⟩⟩) := by decide +kernel

/-! ### C28: signed immediates -/

/-- C28. A signed immediate of `w` bits accepts exactly the literals that fit. -/
theorem C28_accepts {w a : Nat} {s s' : St} {c0 : Cur} (hs : tokenize c0 = .ok s.tok s.ctx.cur) :
    (Operand.sint w a).run false s = .ok () s' ↔
      ∃ (x : Int) (t : Token) (c : Cur), s.tok.kind = .imm x ∧ -(2 ^ (w - 1)) ≤ x ∧ x < 2 ^ (w - 1) ∧
        tokenize s.ctx.cur = .ok t c ∧ s' = s.put (sfield a w x) 0 t c := by
  rw [run_single rfl rfl (P := fun _ k b => ∃ x : Int, k = .imm x ∧ -(2 ^ (w - 1)) ≤ x ∧ x < 2 ^ (w - 1) ∧
      b = sfield a w x) (by
    intro e v ks k' b r
    constructor
    · rintro ⟨h, x, h1, h2, h3⟩; exact ⟨h, _, h1, x, rfl, h2, h3⟩
    · rintro ⟨h, k, h1, x, rfl, h2, h3⟩; exact ⟨h, x, h1, h2, h3⟩) hs]
  constructor
  · rintro ⟨b, t, c, ⟨x, h1, h2, h2', rfl⟩, h3, h4⟩; exact ⟨x, t, c, h1, h2, h2', h3, h4⟩
  · rintro ⟨x, t, c, h1, h2, h2', h3, h4⟩; exact ⟨_, t, c, ⟨x, h1, h2, h2', rfl⟩, h3, h4⟩

/-- C28. The 20-bit immediate accepts exactly the 20-bit integers. -/
theorem C28_imm20_accepts {s s' : St} {c0 : Cur} (hs : tokenize c0 = .ok s.tok s.ctx.cur) :
    Operand.imm20.run false s = .ok () s' ↔
      ∃ (x : Int) (t : Token) (c : Cur), s.tok.kind = .imm x ∧ -(2 ^ 19) ≤ x ∧ x < 2 ^ 19 ∧
        tokenize s.ctx.cur = .ok t c ∧ s' = s.put (sfield 20 19 x ||| field 56 (bit (x < 0))) 0 t c := by
  rw [run_single rfl rfl (P := fun _ k b => ∃ x : Int, k = .imm x ∧ -(2 ^ 19) ≤ x ∧ x < 2 ^ 19 ∧
      b = sfield 20 19 x ||| field 56 (bit (x < 0))) (by
    intro e v ks k' b r
    constructor
    · rintro ⟨h, x, h1, h2, h3⟩; exact ⟨h, _, h1, x, rfl, h2, h3⟩
    · rintro ⟨h, k, h1, x, rfl, h2, h3⟩; exact ⟨h, x, h1, h2, h3⟩) hs]
  constructor
  · rintro ⟨b, t, c, ⟨x, h1, h2, h2', rfl⟩, h3, h4⟩; exact ⟨x, t, c, h1, h2, h2', h3, h4⟩
  · rintro ⟨x, t, c, h1, h2, h2', h3, h4⟩; exact ⟨_, t, c, ⟨x, h1, h2, h2', rfl⟩, h3, h4⟩

/-- C28. The same for signed immediates, in two's complement. -/
theorem C28_signed {w a : Nat} (h : HasOperand dbg code i (.sint w a) ks op) :
    ∃ x : Int, ks = [.imm x] ∧ -(2 ^ (w - 1)) ≤ x ∧ x < 2 ^ (w - 1) ∧ signedOf w (bitsAt op.value a w) = x := by
  obtain ⟨hin, e, v, k', b, r, d⟩ := h.decoded rfl
  obtain ⟨rfl, x, rfl, h1, h2, rfl⟩ := d.accepts
  simp only [Operand.inside, decide_eq_true_eq, Bool.and_eq_true] at hin
  refine ⟨x, rfl, h1, h2, ?_⟩
  rw [d.bits a _ (by simp [Operand.fields]) hin.2, sfield, bitsAt_field (sfield_lt w x) hin.2,
    signedOf_emod hin.1 h1 h2]

/-- C28. The 20-bit immediate: 19 bits from bit 20 on, the sign in bit 56. -/
theorem C28_imm20 (h : HasOperand dbg code i .imm20 ks op) :
    ∃ x : Int, ks = [.imm x] ∧ -(2 ^ 19) ≤ x ∧ x < 2 ^ 19 ∧
      signedOf 20 (bitsAt op.value 20 19 + 2 ^ 19 * bitsAt op.value 56 1) = x := by
  obtain ⟨hin, e, v, k', b, r, d⟩ := h.decoded rfl
  obtain ⟨rfl, x, rfl, h1, h2, rfl⟩ := d.accepts
  refine ⟨x, rfl, h1, h2, ?_⟩
  have hb : bit (decide (x < 0)) < 2 ^ 1 := by unfold bit; split <;> omega
  rw [d.bits 20 19 (by simp [Operand.fields]) (by omega), d.bits 56 1 (by simp [Operand.fields]) (by omega),
    bitsAt_or, bitsAt_or, sfield, bitsAt_field (sfield_lt 19 x) (by omega), bitsAt_field hb (by omega),
    bitsAt_apart hb (by omega), bitsAt_apart (sfield_lt 19 x) (by omega)]
  simp only [Nat.or_zero, Nat.zero_or]
  unfold signedOf bit
  split <;> split <;> rename_i h3 h4 <;> simp only [decide_eq_true_eq] at h3 h4 <;> omega

example : ∃ ks op, HasOperand true c!"IADD32I R1, R2, -0x12345;" 0 (.sint 32 20) ks op ∧
    signedOf 32 (bitsAt op.value 20 32) = -0x12345 := by
  obtain ⟨ks, op, h, hw⟩ := opCheck_has (dbg := true) (code := c!"IADD32I R1, R2, -0x12345;") (i := 0) (j := 9)
    (o := .sint 32 20) (w := 0x1c0fffedcbb70201#64) (by decide +kernel)
  exact ⟨ks, op, h, by rw [hw]; decide⟩

example : ∃ ks op, HasOperand true c!"IADD R1, R2, -0x12345;" 0 .imm20 ks op ∧
    signedOf 20 (bitsAt op.value 20 19 + 2 ^ 19 * bitsAt op.value 56 1) = -0x12345 := by
  obtain ⟨ks, op, h, hw⟩ := opCheck_has (dbg := true) (code := c!"IADD R1, R2, -0x12345;") (i := 0) (j := 9)
    (o := .imm20) (w := 0x3910006dcbb70201#64) (by decide +kernel)
  exact ⟨ks, op, h, by rw [hw]; decide⟩

/-! ### C29: extended unsigned immediates -/

/-- C29, as far as it holds: values below 2^20 can be read back from bits 20 to 38 and 56.  (The claim is
    that no other values are accepted: false for 2^20, see `C29_violated`.) -/
theorem C29_partial (h : HasOperand dbg code i .uimmExtended ks op) :
    ∃ x : Nat, ks = [.imm x] ∧ x ≤ 2 ^ 20 ∧
      (x < 2 ^ 20 → bitsAt op.value 20 19 + 2 ^ 19 * bitsAt op.value 56 1 = x) := by
  obtain ⟨row, args, j, hi, hj, ha⟩ := h
  obtain ⟨ks', h1, ⟨labels, v, k', b, r, hl, ⟨rfl, x, rfl, hx, rfl⟩, hb, -⟩, hp⟩ := hi.facts hj
  obtain rfl : ks = [.imm x] := by simpa [ha] using h1
  refine ⟨x, rfl, hx, fun hlt => ?_⟩
  have hle : j < row.operands.length := (List.getElem?_eq_some_iff.1 hj).1
  have hall := table_extended row hi.mem j hle _ hj rfl
  have sole : ∀ p, inF [(20, 19), (56, 1)] p → row.sole j p := by
    intro p hp o' ho'
    exact not_inF_of_apart (List.all_eq_true.1 hall o' ho') hp
  have bits : ∀ a w, (a, w) ∈ [((20 : Nat), (19 : Nat)), (56, 1)] →
      bitsAt op.value a w = bitsAt (if x < 2 ^ 19 then field 20 x else field 56 1 ||| field 20 (x - 2 ^ 19)) a w := by
    intro a w haw
    apply bitsAt_congr
    intro p hp1 hp2
    have hin : inF [(20, 19), (56, 1)] p := ⟨(a, w), haw, hp1, hp2⟩
    have hin' : inF Operand.uimmExtended.fields p := by
      obtain ⟨f, hf, h1, h2⟩ := hin
      simp only [List.mem_cons, List.not_mem_nil, or_false] at hf
      rcases hf with rfl | rfl
      · exact ⟨(20, 20), by simp [Operand.fields], by simp at h1 ⊢; omega, by simp at h2 ⊢; omega⟩
      · exact ⟨(56, 1), by simp [Operand.fields], h1, h2⟩
    have := hb p hin' (sole p hin)
    have hp64 : p < 64 := by
      simp only [List.mem_cons, Prod.mk.injEq, List.not_mem_nil, or_false] at haw
      omega
    simpa [Op.bit, hp64] using this
  rw [bits 20 19 (by simp), bits 56 1 (by simp)]
  split
  · rename_i hs
    rw [bitsAt_field hs (by omega), bitsAt_apart hs (by omega)]; omega
  · rename_i hs
    have hs' : x - 2 ^ 19 < 2 ^ 19 := by omega
    rw [bitsAt_or, bitsAt_or, bitsAt_field (n := 1) (by omega) (by omega), bitsAt_field hs' (by omega),
      bitsAt_apart (n := 1) (u := 1) (by omega) (by omega), bitsAt_apart hs' (by omega)]
    simp only [Nat.zero_or, Nat.or_zero]
    omega

/-- C29 is violated: the immediate 2^20 is accepted and changes the register field beside it. -/
theorem C29_violated :
    (∃ w, assemble true c!"IADD3 R0, R1, 0x100000, R2;" = .ok w) ∧
    assemble true c!"IADD3 R0, R1, 0x100000, R2;" = assemble true c!"IADD3 R0, R1, 0x80000, R3;" := by
  have h1 : assemble true c!"IADD3 R0, R1, 0x100000, R2;" = .ok
      [0x001f8000fc0007e0#64, 0x39c0018000070100#64, 0x50b0000000070f00#64, 0x50b0000000070f00#64] := by decide +kernel
  have h2 : assemble true c!"IADD3 R0, R1, 0x80000, R3;" = .ok
      [0x001f8000fc0007e0#64, 0x39c0018000070100#64, 0x50b0000000070f00#64, 0x50b0000000070f00#64] := by decide +kernel
  exact ⟨⟨_, h1⟩, h1.trans h2.symm⟩

/-! ### C30: constant buffers -/

/-- C30. Slot and offset of a constant buffer operand can be read back from bits 34 and 20. -/
theorem C30_stored (h : HasOperand dbg code i .cbuf ks op) :
    ∃ (x : Nat) (y : Int),
      ks = [.ident c!"c", .lbracket, .imm x, .rbracket, .lbracket, .imm y, .rbracket] ∧
      x < 32 ∧ -(2 ^ 15) ≤ y ∧ y < 2 ^ 15 ∧ y % 4 = 0 ∧
      bitsAt op.value 34 5 = x ∧ signedOf 14 (bitsAt op.value 20 14) * 4 = y := by
  obtain ⟨hin, e, v, k', b, r, d⟩ := h.decoded rfl
  obtain ⟨rfl, x, y, rfl, h1, h2, h3, h4, rfl⟩ := d.accepts
  refine ⟨x, y, rfl, h1, h2, h3, h4, ?_, ?_⟩
  · rw [d.bits 34 5 (by simp [Operand.fields]) (by omega), bitsAt_or, bitsAt_field h1 (by omega), sfield,
      bitsAt_apart (sfield_lt 14 _) (by omega), Nat.or_zero]
  · rw [d.bits 20 14 (by simp [Operand.fields]) (by omega), bitsAt_or, bitsAt_apart (u := 5) h1 (by omega), sfield,
      bitsAt_field (sfield_lt 14 _) (by omega), Nat.zero_or, signedOf_emod (by omega) (by omega) (by omega)]
    omega

/-- C30. A constant buffer operand accepts exactly these tokens. -/
theorem C30_accepts {s s' : St} {c0 : Cur} (hs : tokenize c0 = .ok s.tok s.ctx.cur) :
    Operand.cbuf.run false s = .ok () s' ↔
      ∃ (x : Nat) (y : Int) (t : Token) (c : Cur), Path s.tok s.ctx.cur
        [.ident c!"c", .lbracket, .imm x, .rbracket, .lbracket, .imm y, .rbracket] t c ∧
        x < 32 ∧ -(2 ^ 15) ≤ y ∧ y < 2 ^ 15 ∧ y % 4 = 0 ∧
        s' = s.put (field 34 x ||| sfield 20 14 (y / 4)) 0 t c := by
  rw [Operand.run_iff _ rfl s (tokenize_proper hs)]
  constructor
  · rintro ⟨ks, b, r, t, c, hp, ⟨rfl, x, y, rfl, h1, h2, h3, h4, rfl⟩, rfl⟩
    exact ⟨x, y, t, c, hp, h1, h2, h3, h4, St.set_zero ..⟩
  · rintro ⟨x, y, t, c, hp, h1, h2, h3, h4, rfl⟩
    exact ⟨_, _, _, t, c, hp, ⟨rfl, x, y, rfl, h1, h2, h3, h4, rfl⟩, (St.set_zero ..).symm⟩

example : ∃ ks op, HasOperand true c!"MOV R1, c[0x3][-0x20];" 0 .cbuf ks op ∧
    bitsAt op.value 34 5 = 3 ∧ signedOf 14 (bitsAt op.value 20 14) * 4 = -0x20 := by
  obtain ⟨ks, op, h, hw⟩ := opCheck_has (dbg := true) (code := c!"MOV R1, c[0x3][-0x20];") (i := 0) (j := 2)
    (o := .cbuf) (w := 0x4c98078fff870001#64) (by decide +kernel)
  exact ⟨ks, op, h, by rw [hw]; decide, by rw [hw]; decide⟩

/-! ### C31: memory operands -/

/-- C31. Base register and offset of a memory operand: the register is at bit 8, the offset, divided by
    2^sh and rounded down, is in its field; without register (or with `RZ`, number 255) it is unsigned,
    otherwise in two's complement. -/
theorem C31_stored {imm : Bool} {a w sh : Nat} (h : HasOperand dbg code i (.memAddress imm a w sh) ks op) :
    ∃ n base off, ks = .lbracket :: (base ++ (off ++ [.rbracket])) ∧
      ((∃ rest, base = .reg n :: rest) ∨ (base = [] ∧ n = 255)) ∧ bitsAt op.value 8 8 = n ∧
      ((off = [] ∧ (imm = true → bitsAt op.value a w = 0)) ∨
        (∃ y : Int, off = [.imm y] ∧ imm = true ∧
          if n = 255 then 0 ≤ y ∧ y < 2 ^ w ∧ (bitsAt op.value a w : Int) = y / 2 ^ sh
          else -(2 ^ (w - 1)) ≤ y ∧ y < 2 ^ (w - 1) ∧ signedOf w (bitsAt op.value a w) = y / 2 ^ sh)) := by
  obtain ⟨hin, e, v, k', b, r, d⟩ := h.decoded rfl
  obtain ⟨n, base, off, rfl, hbase, hoff⟩ := d.accepts
  simp only [Operand.inside, decide_eq_true_eq, Bool.and_eq_true] at hin
  obtain ⟨⟨h16, hw0⟩, h64⟩ := hin
  have hn : n < 2 ^ 8 := by
    rcases hbase with ⟨rest, rfl, -⟩ | ⟨-, rfl, -⟩
    · have := (d.proper (.reg n) (by simp)).1
      simp only [Kind.wf] at this
      omega
    · omega
  refine ⟨n, base, off, rfl, ?_, ?_, ?_⟩
  · rcases hbase with ⟨rest, h1, -⟩ | ⟨h1, h2, -⟩
    · exact .inl ⟨rest, h1⟩
    · exact .inr ⟨h1, h2⟩
  · rw [d.bits 8 8 (by simp [Operand.fields]) (by omega)]
    rcases hoff with ⟨-, rfl⟩ | ⟨-, y, -, -, rfl⟩
    · exact bitsAt_field hn (by omega)
    · rw [bitsAt_or, bitsAt_field hn (by omega), sfield, bitsAt_apart (sfield_lt w _) (by omega), Nat.or_zero]
  · rcases hoff with ⟨h1, rfl⟩ | ⟨h1, y, h2, h3, rfl⟩
    · refine .inl ⟨h1, fun hi => ?_⟩
      rw [d.bits a w (by simp [Operand.fields, hi]) h64]
      exact bitsAt_apart hn (by omega)
    · refine .inr ⟨y, h2, h1, ?_⟩
      rw [d.bits a w (by simp [Operand.fields, h1]) h64, bitsAt_or, bitsAt_apart hn (by omega), sfield,
        bitsAt_field (sfield_lt w _) h64, Nat.zero_or]
      have hsh : (1 : Int) ≤ 2 ^ sh := Int.pow_pos (by omega)
      by_cases h255 : n = 255
      · simp only [h255, if_true] at h3 ⊢
        have h4 : 0 ≤ y / 2 ^ sh := Int.ediv_nonneg h3.1 (by omega)
        have h5 : y / 2 ^ sh ≤ y := Int.ediv_le_self _ h3.1
        refine ⟨h3.1, h3.2, ?_⟩
        rw [Int.emod_eq_of_lt h4 (by omega)]
        omega
      · simp only [h255, if_false] at h3 ⊢
        refine ⟨h3.1, h3.2, signedOf_emod hw0 ?_ ?_⟩
        · rw [Int.le_ediv_iff_mul_le (by omega)]
          have : (0 : Int) < 2 ^ (w - 1) := Int.pow_pos (by omega)
          have : (2 : Int) ^ (w - 1) * 1 ≤ 2 ^ (w - 1) * 2 ^ sh := Int.mul_le_mul_of_nonneg_left hsh (by omega)
          rw [Int.neg_mul]
          omega
        · rw [Int.ediv_lt_iff_lt_mul (by omega)]
          have : (0 : Int) < 2 ^ (w - 1) := Int.pow_pos (by omega)
          have : (2 : Int) ^ (w - 1) * 1 ≤ 2 ^ (w - 1) * 2 ^ sh := Int.mul_le_mul_of_nonneg_left hsh (by omega)
          omega

/-- C31. A memory operand accepts exactly the tokens of its grammar. -/
theorem C31_accepts {imm : Bool} {a w sh : Nat} (hw : w + sh ≤ 64) {s s' : St} {c0 : Cur}
    (hs : tokenize c0 = .ok s.tok s.ctx.cur) :
    (Operand.memAddress imm a w sh).run false s = .ok () s' ↔
      ∃ ks b r t c, Path s.tok s.ctx.cur ks t c ∧ memory imm a w sh ks t.kind b r ∧ s' = s.put b r t c := by
  rw [Operand.run_iff _ (by simpa [Operand.grammatical, Operand.adds] using hw) s (tokenize_proper hs)]
  simp only [show clears (.memAddress imm a w sh) = 0 from rfl, St.set_zero]
  rfl

example : ∃ ks op, HasOperand true c!"LDG.E R1, [R2-0x10];" 0 (.memAddress true 20 24 0) ks op ∧
    bitsAt op.value 8 8 = 2 ∧ signedOf 24 (bitsAt op.value 20 24) = -0x10 := by
  obtain ⟨ks, op, h, hw⟩ := opCheck_has (dbg := true) (code := c!"LDG.E R1, [R2-0x10];") (i := 0) (j := 5)
    (o := .memAddress true 20 24 0) (w := 0xeed42fffff070201#64) (by decide +kernel)
  exact ⟨ks, op, h, by rw [hw]; decide, by rw [hw]; decide⟩

example : ∃ ks op, HasOperand true c!"LDG.E R1, [0xfffff0];" 0 (.memAddress true 20 24 0) ks op ∧
    bitsAt op.value 8 8 = 255 ∧ bitsAt op.value 20 24 = 0xfffff0 := by
  obtain ⟨ks, op, h, hw⟩ := opCheck_has (dbg := true) (code := c!"LDG.E R1, [0xfffff0];") (i := 0) (j := 5)
    (o := .memAddress true 20 24 0) (w := 0xeed42fffff07ff01#64) (by decide +kernel)
  exact ⟨ks, op, h, by rw [hw]; decide, by rw [hw]; decide⟩

/-- C31. In every row but that of `ATOMS` the offset is stored undivided. -/
theorem C31_rows : ∀ row ∈ insnTable, ∀ o ∈ row.operands, (∃ imm a w sh, o = .memAddress imm a w sh ∧ sh ≠ 0) →
    row.mnemonic = c!"ATOMS" := by
  have : ∀ row ∈ insnTable, ∀ o ∈ row.operands,
      (match o with | .memAddress _ _ _ sh => sh != 0 | _ => false) = true → row.mnemonic = c!"ATOMS" := by
    decide +kernel
  rintro row hr o ho ⟨imm, a, w, sh, rfl, hsh⟩
  exact this row hr _ ho (by simpa using hsh)

/-- C31. `ATOMS` silently rounds a byte offset that is not a multiple of four. -/
theorem C31_atoms_rounds :
    (∃ w, assemble true c!"ATOMS.ADD.U32 R0, [R1+0x7], R2;" = .ok w) ∧
    assemble true c!"ATOMS.ADD.U32 R0, [R1+0x7], R2;" = assemble true c!"ATOMS.ADD.U32 R0, [R1+0x4], R2;" := by
  have h1 : assemble true c!"ATOMS.ADD.U32 R0, [R1+0x7], R2;" = .ok
      [0x001f8000fc0007e0#64, 0xec00000040270100#64, 0x50b0000000070f00#64, 0x50b0000000070f00#64] := by decide +kernel
  have h2 : assemble true c!"ATOMS.ADD.U32 R0, [R1+0x4], R2;" = .ok
      [0x001f8000fc0007e0#64, 0xec00000040270100#64, 0x50b0000000070f00#64, 0x50b0000000070f00#64] := by decide +kernel
  exact ⟨⟨_, h1⟩, h1.trans h2.symm⟩

/-! ### C35: mirrored registers -/

/-- C35. In an accepted instruction the mirrored register is the register stored at the same position. -/
theorem C35_equal {row : Insn} {args : List (List Kind)} {j j0 a : Nat} (h : Instr dbg code i row args op)
    (hj : row.operands[j]? = some (.mirrorGpr a)) (hj0 : row.operands[j0]? = some (.gpr a)) :
    ∃ n rest rest', args[j]? = some (.reg n :: rest) ∧ args[j0]? = some (.reg n :: rest') := by
  have rows : ∀ row ∈ insnTable, ∀ j < row.operands.length, (match row.operands[j]? with
      | some (.mirrorGpr a) => ((row.operands.drop j).all fun o => o.fields.all (Field.apart (a, 8))) &&
          row.operands.all (! ·.isExtended)
      | _ => true) = true := by
    decide +kernel
  have hlen : j < row.operands.length := (List.getElem?_eq_some_iff.1 hj).1
  have hlen0 : j0 < row.operands.length := (List.getElem?_eq_some_iff.1 hj0).1
  have ha : a + 8 ≤ 64 := by
    simpa [Operand.inside] using table_inside _ h.mem _ (List.mem_of_getElem? hj)
  have h0 := rows row h.mem j hlen
  rw [hj] at h0
  obtain ⟨h1, h2⟩ := Bool.and_eq_true_iff.1 h0
  have hal := table_gpr_alone row h.mem j0 hlen0 _ hj0 rfl h2
  obtain ⟨ks0, hk0, -⟩ := h.facts hj0
  obtain ⟨e0, v0, k0, b0, r0, d0⟩ := h.decoded hj0 hk0 hal
  obtain ⟨n0, rest0, rfl, rfl, hr0⟩ := d0.accepts
  obtain ⟨ks, hk, ⟨labels, v, k', b, r, hl, ⟨-, n, rest, rfl, hv, -⟩, -, hb⟩, -⟩ := h.facts hj
  have hn0 : n0 < 2 ^ 8 := by
    have := (d0.proper (.reg n0) (by simp)).1
    simp only [Kind.wf] at this
    omega
  have : bitsAt v a 8 = n0 := by
    rw [← bitsAt_field hn0 ha, ← d0.bits a 8 (by simp [Operand.fields]) ha]
    apply bitsAt_congr
    intro p hp1 hp2
    apply hb p (by omega)
    intro o' ho' hc
    have := List.all_eq_true.1 h1 o' ho'
    obtain ⟨f, hf, h3, h4⟩ := hc
    have := List.all_eq_true.1 this f hf
    simp only [Field.apart, Bool.or_eq_true, decide_eq_true_eq] at this
    omega
  obtain rfl : n0 = n := by omega
  exact ⟨n0, rest, rest0, hk, hk0⟩

/-- C35. A mirrored register accepts exactly the register stored at its position, and adds no bit to the
    word. -/
theorem C35_accepts {a : Nat} (ha : a ≤ 56) {s s' : St} {c0 : Cur} (hs : tokenize c0 = .ok s.tok s.ctx.cur) :
    (Operand.mirrorGpr a).run false s = .ok () s' ↔
      ∃ n rest r t c, Path s.tok s.ctx.cur (.reg n :: rest) t c ∧ bitsAt s.op.value a 8 = n ∧
        reuse a rest t.kind r ∧ s' = s.put 0 r t c := by
  rw [Operand.run_iff _ (by simpa [Operand.grammatical] using ha) s (tokenize_proper hs)]
  simp only [show clears (.mirrorGpr a) = 0 from rfl, St.set_zero]
  constructor
  · rintro ⟨ks, b, r, t, c, hp, ⟨rfl, n, rest, rfl, h1, h2⟩, rfl⟩
    exact ⟨n, rest, r, t, c, hp, h1, h2, rfl⟩
  · rintro ⟨n, rest, r, t, c, hp, h1, h2, rfl⟩
    exact ⟨_, _, r, t, c, hp, ⟨rfl, n, rest, rfl, h1, h2⟩, rfl⟩

/-- Every row with a mirrored register has a register at the same position before it. -/
theorem C35_rows : ∀ row ∈ insnTable, ∀ j < row.operands.length, ∀ a < 64,
    row.operands[j]? = some (.mirrorGpr a) → ∃ j0 < j, row.operands[j0]? = some (.gpr a) := by
  have rows : ∀ row ∈ insnTable, ∀ j < row.operands.length, (match row.operands[j]? with
      | some (.mirrorGpr a) => decide (∃ j0 < j, row.operands[j0]? = some (.gpr a))
      | _ => true) = true := by
    decide +kernel
  intro row hr j hlen a _ hj
  have h0 := rows row hr j hlen
  rw [hj] at h0
  exact of_decide_eq_true h0

example : ∃ ks op, HasOperand true c!"FFMA32I R7, R1, 2, R7;" 0 (.mirrorGpr 0) ks op ∧
    op.value = 0x0c04000000070107#64 := opCheck_has (j := 11) (by decide +kernel)
example : assemble true c!"FFMA32I R7, R1, 2, R6;" = .exit (.located ⟨0, 21, "source register is not mirrored to destination register"⟩) := by
  decide +kernel

/-! ### C36: reuse flags -/

/-- C36. A reuse flag of an instruction is set if and only if the operand that it belongs to is written
    with `.reuse`; registers at bit 8 have flag 0, at bit 20 flag 1 and at bit 39 flag 2, and the base
    registers of memory operands have flag 0. -/
theorem C36_flags {row : Insn} {args : List (List Kind)} (h : Instr dbg code i row args op) (q : Nat) :
    op.reuse.getLsbD q = true ↔ ∃ (j : Nat) (o : Operand) (ks : List Kind), row.operands[j]? = some o ∧
      args[j]? = some ks ∧ inF o.fields (64 + q) ∧ .ident c!".reuse" ∈ ks :=
  h.flags q

/-- C36. A register is one token, possibly followed by `.reuse`; it is stored at its position; `.reuse` is
    accepted at bits 8, 20 and 39 only. -/
theorem C36_register {a : Nat} (h : HasOperand dbg code i (.gpr a) ks op) :
    ∃ n rest, ks = .reg n :: rest ∧
      (rest = [] ∨ (rest = [.ident c!".reuse"] ∧ (a = 8 ∨ a = 20 ∨ a = 39))) := by
  obtain ⟨row, args, j, hi, hj, ha⟩ := h
  obtain ⟨ks', h1, ⟨labels, v, k', b, r, hl, ⟨n, rest, rfl, -, hr⟩, -⟩, hp⟩ := hi.facts hj
  obtain rfl : ks = .reg n :: rest := by simpa [ha] using h1
  refine ⟨n, rest, rfl, ?_⟩
  rcases hr with ⟨rfl, h⟩ | ⟨rfl, -, rfl⟩
  · refine .inr ⟨rfl, ?_⟩
    unfold reuseFlag at h
    split at h <;> simp at h ⊢
  · exact .inl rfl

/-- The register can be read back, but for `IADD3` with an immediate (see `C29_violated`). -/
theorem C36_stored {a j : Nat} {row : Insn} {args : List (List Kind)} (h : Instr dbg code i row args op)
    (hj : row.operands[j]? = some (.gpr a)) (hx : .uimmExtended ∉ row.operands) :
    ∃ n rest, args[j]? = some (.reg n :: rest) ∧ bitsAt op.value a 8 = n := by
  have hlen : j < row.operands.length := (List.getElem?_eq_some_iff.1 hj).1
  have hal := table_gpr_alone row h.mem j hlen _ hj rfl (by
    rw [List.all_eq_true]
    intro o ho
    cases o <;> first | rfl | exact (hx ho).elim)
  obtain ⟨ks, hk, -⟩ := h.facts hj
  obtain ⟨e, v, k', b, r, d⟩ := h.decoded hj hk hal
  obtain ⟨n, rest, rfl, rfl, hr⟩ := d.accepts
  have ha : a + 8 ≤ 64 := by
    simpa [Operand.inside] using table_inside _ h.mem _ (List.mem_of_getElem? hj)
  have hn : n < 2 ^ 8 := by
    have := (d.proper (.reg n) (by simp)).1
    simp only [Kind.wf] at this
    omega
  exact ⟨n, rest, hk, by rw [d.bits a 8 (by simp [Operand.fields]) ha, bitsAt_field hn ha]⟩

example : ∃ row args op, insnTable[72]? = some row ∧ Instr true c!"FFMA R0, R1.reuse, R2, R3.reuse;" 0 row args op ∧
    op.reuse = 5 := by
  obtain ⟨row, args, h1, h2⟩ := instr_of_row (dbg := true) (code := c!"FFMA R0, R1.reuse, R2, R3.reuse;") (i := 0)
    (n := 72) (op := ⟨0x5980018000270100#64, 5, 0x7e0⟩) (by decide +kernel)
  exact ⟨row, args, _, h1, h2, rfl⟩

example : assemble true c!"MOV R0.reuse, R1;" = .exit (.located ⟨0, 6, "register cannot be reused"⟩) := by
  decide +kernel

/-! ### C20, C21: branches -/

/-- C21. A branch operand accepts exactly a defined label or an integer literal within reach; the target is
    never truncated. -/
theorem C21_accepts {s s' : St} {c0 : Cur} (hs : tokenize c0 = .ok s.tok s.ctx.cur) :
    Operand.label.run false s = .ok () s' ↔
      ∃ (target : Int) (t : Token) (c : Cur),
        ((∃ name a, s.tok.kind = .ident name ∧ s.ctx.labels.find name = some a ∧ target = a) ∨
          s.tok.kind = .imm target) ∧
        -(2 ^ 23) ≤ target - s.ctx.pc - 8 ∧ target - s.ctx.pc - 8 < 2 ^ 23 ∧
        tokenize s.ctx.cur = .ok t c ∧ s' = s.put (sfield 20 24 (target - s.ctx.pc - 8)) 0 t c := by
  rw [run_single rfl rfl (P := fun e k b => ∃ target : Int,
      ((∃ name a, k = .ident name ∧ e.label name = some a ∧ target = a) ∨ k = .imm target) ∧
      -(2 ^ 23) ≤ target - e.pc - 8 ∧ target - e.pc - 8 < 2 ^ 23 ∧ b = sfield 20 24 (target - e.pc - 8)) (by
    intro e v ks k' b r
    constructor
    · rintro ⟨h, x, ⟨name, a, rfl, h1⟩ | rfl, h2, h3⟩
      · exact ⟨h, _, rfl, x, .inl ⟨name, a, rfl, h1⟩, h2, h3⟩
      · exact ⟨h, _, rfl, x, .inr rfl, h2, h3⟩
    · rintro ⟨h, k, rfl, x, ⟨name, a, rfl, h1⟩ | rfl, h2, h3⟩
      · exact ⟨h, x, .inl ⟨name, a, rfl, h1⟩, h2, h3⟩
      · exact ⟨h, x, .inr rfl, h2, h3⟩) hs]
  constructor
  · rintro ⟨b, t, c, ⟨x, h1, h2, h2', rfl⟩, h3, h4⟩; exact ⟨x, t, c, h1, h2, h2', h3, h4⟩
  · rintro ⟨x, t, c, h1, h2, h2', h3, h4⟩; exact ⟨_, t, c, ⟨x, h1, h2, h2', rfl⟩, h3, h4⟩

/-- C20 and C21. The operand of an accepted branch is a label defined in the source or a literal; the 24
    bits from bit 20 on are the distance from the next instruction to the target. -/
theorem C20_target (h : HasOperand dbg code i .label ks op) :
    ∃ target : Int,
      ((∃ name pre, ks = [.ident name] ∧ FirstDef (visible code) pre name ∧ target = addressOf (pre.count ';')) ∨
        ks = [.imm target]) ∧
      signedOf 24 (bitsAt op.value 20 24) = target - addressOf i - 8 := by
  obtain ⟨hin, e, v, k', b, r, d⟩ := h.decoded rfl
  obtain ⟨rfl, target, hk, h1, h2, rfl⟩ := d.accepts
  obtain ⟨labels, hl, he⟩ := d.labels
  rw [d.pc] at *
  refine ⟨target, ?_, ?_⟩
  · rcases hk with ⟨name, a, rfl, ha, rfl⟩ | rfl
    · rw [he] at ha
      obtain ⟨pre, hp, rfl⟩ := (genLabels_find hl name a).1 ha
      exact .inl ⟨name, pre, rfl, hp, rfl⟩
    · exact .inr rfl
  · rw [d.bits 20 24 (by simp [Operand.fields]) (by omega), sfield, bitsAt_field (sfield_lt 24 _) (by omega),
      signedOf_emod (by omega) h1 h2]

example : ∃ ks op, HasOperand true c!"foo:\nNOP;\nNOP;\nBRA foo;" 2 .label ks op ∧
    signedOf 24 (bitsAt op.value 20 24) = (addressOf 0 : Int) - addressOf 2 - 8 := by
  obtain ⟨ks, op, h, hw⟩ := opCheck_has (dbg := true) (code := c!"foo:\nNOP;\nNOP;\nBRA foo;") (i := 2) (j := 2)
    (o := .label) (w := 0xe2400ffffe87000f#64) (by decide +kernel)
  exact ⟨ks, op, h, by rw [hw]; decide⟩

end Nxas
