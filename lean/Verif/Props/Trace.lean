import Verif.Lemmas.Trace
import Verif.Props.Printf
/-
C85: no message with arguments of the wrong type is formatted while a source is read that is accepted.
-/

namespace Nxas

open Spec Opnd

/-- The message can be formatted as its text says, whatever the sizes of the types of the machine. -/
theorem Tale.printable {v : Words} {t : Str} {e : Err} (hz : '\x00' ∉ t) (h : Tale v ⟨t, 0, 0⟩ e) (hm : e.msg.fmt ∉ mistyped) :
    ∃ u, e.msg.print false = some u := by
  obtain ⟨pre, post, -, -, -, ht⟩ := h.tells hz
  cases ht with
  | token _ _ hf => exact (fits_print hf).resolve_right hm
  | ended _ hf => exact (fits_print hf).resolve_right hm
  | none _ hn => exact noToken_print hn _

/-- The errors built for an instruction that is accepted. -/
theorem insnTrace_print {t : Str} (hz : '\x00' ∉ t) {ls : Labels} (w : WordsOf (words t) ls insnTable) {dbg : Bool} {x : Ctx}
    (hs : Loose ⟨t, 0, 0⟩ ls x.fresh) {s : St} (h : parseInstruction insnTable dbg x.fresh = .ok true s) {e : Err}
    (he : e ∈ insnTrace insnTable dbg x.fresh) : ∃ u, e.msg.print false = some u := by
  obtain ⟨st⟩ := parseInstruction_inv h
  obtain ⟨row', hr, hm, s', sc, hf⟩ := insnTrace_mem st he
  have h1 := advance_loose (v := words t) (c0 := ⟨t, 0, 0⟩) (dbg := dbg) (Q := fun _ _ => True) hs fun _ => trivial
  rw [st.first] at h1
  have h2 := Telling.parseOptions (n := st.s1.ctx.cur.text.length + 2) (Q := fun _ _ => True) w.types (fun _ => trivial) dbg st.s1 h1.1 rfl
  rw [st.options] at h2
  have hpro := st.prologue
  rw [← parsePrologue_eq] at hpro
  have h3 := Telling.parsePrologue (v := words t) (Q := fun _ k => ∃ x, k = .ident x) (fun x => ⟨x, rfl⟩) dbg st.s2 h2.1 rfl
  rw [hpro] at h3
  obtain ⟨⟨hl, c, hc, ht⟩, name, hn⟩ := h3
  have hloose : Loose ⟨t, 0, 0⟩ ls st.s3 := ⟨hl, hc.trans (tokenize_ok ht).reach⟩
  have hmem : row' ∈ insnTable := by
    rw [st.split]
    exact List.mem_append_left _ hr
  have htale := parseInsn_good (c0 := ⟨t, 0, 0⟩) w hmem (dbg := dbg) hloose
  rw [hf] at htale
  refine htale.2.printable hz ?_
  have h2op : st.s2.op = {} := by
    rw [parseOptions_op st.options]
    obtain ⟨_, _, -, h⟩ := advance_ok st.first
    rw [h]
    rfl
  obtain ⟨g, mn, -, -, hgw, hgo, -⟩ := prologueBody_inv st.prologue
  have h3op : st.s3.op = ⟨guardWord g, 0, 0⟩ := by
    rw [hgo]; simp only [h2op, Op.mk.injEq, and_true]; exact BitVec.zero_or
  have release : ∀ i, (parseInsn i dbg st.s3).1 ≠ .abort → parseInsn i false st.s3 = parseInsn i dbg st.s3 := by
    intro i hi
    cases dbg with
    | false => rfl
    | true => exact ((parseInsn_debug i st.s3).resolve_left hi).symm
  have hrmem : ∀ {l}, l = st.pre ++ st.row :: st.post → st.row ∈ l := by rintro _ rfl; simp
  replace hrmem := hrmem st.split
  have hrow := st.accepted
  rw [← release _ (by rw [hrow]; simp)] at hrow
  rw [← release _ (by rw [hf]; simp)] at hf
  obtain ⟨t0, c0, ks, op, t', c', e1, e2, e3, e4, -⟩ := (parseInsn_iff hrmem hgw h3op _).1 (congrArg Prod.fst hrow)
  exact earlier_row_mild st.split hr hm e1 e2 e3 e4 hf

theorem parseAllTrace_print {t : Str} (hz : '\x00' ∉ t) {ls : Labels} (w : WordsOf (words t) ls insnTable) {dbg : Bool} {room : Nat}
    {x : Ctx} (hs : Loose ⟨t, 0, 0⟩ ls x.fresh) {ops : List Op} {c : Ctx} (h : parseAll insnTable dbg room x = .ok (ops, c)) :
    ∀ e ∈ parseAllTrace insnTable dbg room x, ∃ u, e.msg.print false = some u := by
  induction room generalizing x ops with
  | zero => simp [parseAllTrace]
  | succ room ih =>
    intro e he
    unfold parseAllTrace at he
    unfold parseAll at h
    have hg := parseInstruction_good (c0 := ⟨t, 0, 0⟩) w (dbg := dbg) hs
    change e ∈ insnTrace insnTable dbg x.fresh ++ (match parseInstruction insnTable dbg x.fresh with
      | .ok true s => parseAllTrace insnTable dbg room s.ctx
      | _ => []) at he
    change (match parseInstruction insnTable dbg x.fresh with
      | .ok false s => .ok ([], s.ctx)
      | .ok true s => (match parseAll insnTable dbg room s.ctx with
        | .ok (ops, c) => .ok (s.op :: ops, c)
        | r => r)
      | .fail e _ => .exit (.located e)
      | .exit e => .exit (.located e)
      | .abort => .abort
      | .ub u => .ub u) = Res.ok (ops, c) at h
    cases hp : parseInstruction insnTable dbg x.fresh with
    | ok b s =>
      rw [hp] at h he hg
      cases b with
      | false =>
        exfalso
        have hh : insnTrace insnTable dbg x.fresh = [] := by
          rw [parseInstruction_head] at hp
          unfold insnTrace
          cases hi : insnHead dbg x.fresh with
          | ok b' s' =>
            cases b' with
            | false => rfl
            | true =>
              rw [hi] at hp
              dsimp only at hp
              cases ht : tryRows s'.tok s' insnTable none dbg s' <;> rw [ht] at hp <;> simp [Out.bind] at hp
          | _ => rfl
        rw [hh] at he
        simp at he
      | true =>
        dsimp only at h he
        rcases List.mem_append.1 he with he | he
        · exact insnTrace_print hz w hs hp he
        · cases hq : parseAll insnTable dbg room s.ctx with
          | ok p =>
            rw [hq] at h
            simp only [Res.ok.injEq, Prod.mk.injEq] at h
            exact ih hg (ops := p.1) (by rw [hq, ← h.2]) e he
          | _ => rw [hq] at h; simp at h
    | _ => rw [hp] at h; simp at h

/-- While a source is read that is accepted, every error that is built has a message whose arguments have the types that its
    format asks for. -/
theorem C85 {dbg : Bool} {code : Str} {ws : List (BitVec 64)} (h : assemble dbg code = .ok ws) :
    ∀ e ∈ assembleTrace dbg code, ∃ u, e.msg.print false = some u := by
  unfold assemble assembleWith at h
  unfold assembleTrace
  split at h
  · simp at h
  · rename_i labels hl
    rw [hl]
    dsimp only at h ⊢
    split at h
    · rename_i ops c hp
      exact parseAllTrace_print (fun hm => by simpa using List.mem_takeWhile_imp hm) (words_of hl) ⟨rfl, Reach.refl _⟩ hp
    all_goals simp at h

/-- Two rows are tried and rejected before the one that fits. -/
example : (∃ ws, assemble true c!"IADD R1, R2, 5;" = .ok ws) ∧
    (assembleTrace true c!"IADD R1, R2, 5;").map (·.msg.print false) =
      [some c!"expected \x1b[1mregister\x1b[0m and got \x1b[1mimmediate \x1b[0m", some c!"expected constant buffer"] :=
  ⟨⟨_, show assemble true c!"IADD R1, R2, 5;" = .ok [0x001f8000fc0007e0#64, 0x3810000000570201#64, 0x50b0000000070f00#64,
    0x50b0000000070f00#64] by decide +kernel⟩, by decide +kernel⟩

/-- Without the hypothesis the claim is false, even when the message that is reported is a good one: the value is out of the
    range of the third row, the message of the first row is reported, and the message of the third has been formatted with a
    `long` where an `int` is expected. -/
theorem C85_rejected : ∃ (code : Str) (e : Err), (∀ dbg, assemble dbg code = .exit (.located e)) ∧ (∃ u, e.msg.print false = some u) ∧
    ∀ dbg, ∃ e' ∈ assembleTrace dbg code, e'.msg.print false = none := by
  refine ⟨c!"IADD R1, R2, 0x100000;", ⟨0, 13, ⟨"expected \x1b[1m%s\x1b[0m and got \x1b[1m%s %.*s\x1b[0m",
    [.text c!"register", .text c!"immediate", .text []]⟩⟩, by decide +kernel,
    ⟨c!"expected \x1b[1mregister\x1b[0m and got \x1b[1mimmediate \x1b[0m", by decide +kernel⟩, by decide +kernel⟩

end Nxas
