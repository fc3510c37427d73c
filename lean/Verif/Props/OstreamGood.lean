import Verif.Lemmas.OstreamGood
import Verif.Props.Ostream
/-! # C133: a stream that says it is good has lost nothing -/
namespace Fcgi.Props
open Fcgi Fcgi.Model Fcgi.Spec

theorem opsOn_map {α} (e : Bool) (ops : List (OOp α)) : opsOn e (ops.map fun op => (e, op)) = ops := by
  induction ops with
  | nil => rfl
  | cons op ops ih =>
    unfold opsOn at ih ⊢
    simp only [List.map_cons, decide_true, List.filter_cons_of_pos, List.map_cons, ih]

/-- What output in portions says, under the formatting state of a new stream. -/
theorem portioned_said {ops : List (OOp UInt32)} : ∀ {n} {f : OFmt UInt32}, Portioned n ops → f.good = true → f.width = 0 → f.coding = .plain → f.left = false →
    (f.after ops).good = true ∧ ∀ out, RendersAll utf8Text (f.said ops) out → out = utf8Text (ops.flatMap OOp.chars) := by
  induction ops with
  | nil => intro n f _ hg _ _ _; exact ⟨hg, fun out h => h⟩
  | cons op ops ih =>
    intro n f hp hg hw hc hl
    obtain ⟨fg, fw, ff, fl, fc⟩ := f
    dsimp only at hg hw hc hl
    subst hg; subst hw; subst hc; subst hl
    have one : ∀ (s : List UInt32) (is : List (Item UInt32)) out, RendersAll utf8Text (.text .plain s :: is) out → ∃ b, out = utf8Text s ++ b ∧ RendersAll utf8Text is b := by
      rintro s is out ⟨a, b, h1, h2, h3⟩
      have h2' : a = utf8Text s := h2
      exact ⟨b, by rw [h1, h2'], h3⟩
    have ap : ∀ s t : List UInt32, utf8Text (s ++ t) = utf8Text s ++ utf8Text t := fun s t => by unfold utf8Text; rw [List.flatMap_append]
    have e0 : utf8Text [] = [] := rfl
    have single : ∀ (s : List UInt32) (f' : OFmt UInt32), ((f'.after ops).good = true ∧ ∀ out, RendersAll utf8Text (f'.said ops) out → out = utf8Text (ops.flatMap OOp.chars)) →
        ∀ out, RendersAll utf8Text (.text .plain s :: f'.said ops) out → out = utf8Text (s ++ ops.flatMap OOp.chars) := by
      intro s f' h out hr
      obtain ⟨b, h1, h2⟩ := one s _ out hr
      rw [h1, h.2 b h2, ap]
    have padd : ∀ s : List UInt32, (⟨true, 0, ff, false, .plain⟩ : OFmt UInt32).padded s = [.text .plain [], .text .plain s] := by
      intro s
      have : ((0:Int) - (s.length : Int)).toNat = 0 := by omega
      simp only [OFmt.padded, this]
      rfl
    have h : ∀ {m}, Portioned m ops → _ := fun hm => ih (f := ⟨true, 0, ff, false, .plain⟩) hm rfl rfl rfl rfl
    cases op with
    | put c => exact ⟨(h hp).1, single [c] _ (h hp)⟩
    | char c => exact ⟨(h hp).1, single [c] _ (h hp)⟩
    | insert s =>
      refine ⟨(h hp.2).1, fun out hr => ?_⟩
      have hr' : RendersAll utf8Text ((⟨true, 0, ff, false, .plain⟩ : OFmt UInt32).padded s ++ (⟨true, 0, ff, false, .plain⟩ : OFmt UInt32).said ops) out := hr
      rw [padd] at hr'
      obtain ⟨b, h1, h2⟩ := one [] _ out hr'
      rw [h1]
      exact single s _ (h hp.2) b h2
    | number s => exact ⟨(h hp.2).1, single s _ (h hp.2)⟩
    | write s => exact ⟨(h hp.2).1, single s _ (h hp.2)⟩
    | flush => exact h hp
    | unit u => exact h hp
    | copy _ => exact hp.elim
    | null => exact hp.elim
    | fail => exact hp.elim
    | clear => exact hp.elim
    | width _ => exact hp.elim
    | fillWith _ => exact hp.elim
    | left _ => exact hp.elim
    | coding _ => exact hp.elim
    | dump _ => exact hp.elim
    | dumpStream _ => exact hp.elim

theorem portioned_flush {ops : List (OOp UInt32)} : ∀ {n}, Portioned n ops → Portioned n (ops ++ [.flush]) := by
  induction ops with
  | nil => intro n _; trivial
  | cons op ops ih =>
    intro n hp
    cases op <;> first | exact ih hp | exact ⟨hp.1, ih hp.2⟩ | exact hp.elim

theorem portioned_cons {n} {op : OOp UInt32} {ops} (hp : Portioned n (op :: ops)) : (∃ m, Portioned m ops) ∧ ((∀ c ∈ op.chars, isScalar c) → OOpScalar op) := by
  cases op with
  | put c => exact ⟨⟨_, hp⟩, fun h => h c (by simp [OOp.chars])⟩
  | char c => exact ⟨⟨_, hp⟩, fun h => h c (by simp [OOp.chars])⟩
  | insert s => exact ⟨⟨_, hp.2⟩, fun h => h⟩
  | number s => exact ⟨⟨_, hp.2⟩, fun h => h⟩
  | write s => exact ⟨⟨_, hp.2⟩, fun h => h⟩
  | flush => exact ⟨⟨_, hp⟩, fun _ => trivial⟩
  | unit u => exact ⟨⟨_, hp⟩, fun _ => trivial⟩
  | copy _ => exact hp.elim
  | null => exact hp.elim
  | fail => exact hp.elim
  | clear => exact hp.elim
  | width _ => exact hp.elim
  | fillWith _ => exact hp.elim
  | left _ => exact hp.elim
  | coding _ => exact hp.elim
  | dump _ => exact hp.elim
  | dumpStream _ => exact hp.elim

/-- Characters that are Unicode, written in portions, are written by scalar operations. -/
theorem portioned_scalar {ops : List (OOp UInt32)} : ∀ {n}, Portioned n ops → (∀ c ∈ ops.flatMap OOp.chars, isScalar c) → ∀ op ∈ ops, OOpScalar op := by
  induction ops with
  | nil => intro n _ _ op h; cases h
  | cons o ops ih =>
    intro n hp hs op ho
    obtain ⟨⟨m, hm⟩, h3⟩ := portioned_cons hp
    have h1 : ∀ c ∈ o.chars, isScalar c := fun c hc => hs c (by rw [List.flatMap_cons, List.mem_append]; exact .inl hc)
    have h2 : ∀ c ∈ ops.flatMap OOp.chars, isScalar c := fun c hc => hs c (by rw [List.flatMap_cons, List.mem_append]; exact .inr hc)
    rcases List.mem_cons.1 ho with rfl | ho
    · exact h3 h1
    · exact ih hm h2 op ho

/-- **C133** Wide characters of any value are written to one of the streams of a request, one at a time or in strings that fit into the buffer, and the stream is flushed.
Then the stream says it is good exactly if all the characters were Unicode, and if it does all of them have been handed to the transceiver, in UTF-8.
Missing: longer strings and raw data, where it is false (`C133_string_violated`, `C133_dump_violated`). -/
theorem C133_partial (sentry : Bool) (g : Nat → Nat → Nat → UInt8) (sock : Nat) (id : UInt16) (e : Bool) (ops : List (OOp UInt32)) (hp : Portioned 0 ops) :
    ∃ r, (ReqStreams.fresh 32 sock id).run (wideOs sentry g) ((ops ++ [OOp.flush]).map fun op => (e, op)) = .ok r ∧
      ((r.which e).good = true ↔ ∀ c ∈ ops.flatMap OOp.chars, isScalar c) ∧
      ((r.which e).good = true → ∃ rs, HandedNow r sock id rs ∧ contents (if e then 7 else 6) rs = utf8Text (ops.flatMap OOp.chars)) := by
  have hch : (ops ++ [OOp.flush]).flatMap OOp.chars = ops.flatMap OOp.chars := by simp [OOp.chars]
  by_cases hs : ∀ c ∈ ops.flatMap OOp.chars, isScalar c
  · have hsc := portioned_scalar (portioned_flush hp) (by rw [hch]; exact hs)
    have hsc' : ∀ p ∈ (ops ++ [OOp.flush]).map (fun op => (e, op)), OOpScalar p.2 := by
      intro p hp
      obtain ⟨op, ho, rfl⟩ := List.mem_map.1 hp
      exact hsc op ho
    have hsp : isScalar 32 := by left; decide
    have hfg := (portioned_said (f := OFmt.fresh 32) hp rfl rfl rfl rfl).1
    have hfo := (portioned_said (f := OFmt.fresh 32) (portioned_flush hp) rfl rfl rfl rfl)
    have e1 : (ops ++ [OOp.flush]).map (fun op => (e, op)) = ops.map (fun op => (e, op)) ++ [(e, .flush)] := by simp
    obtain ⟨r, rs, h1, h2, h3⟩ := C126_wide_prompt sentry g sock id (ops.map fun op => (e, op)) e .flush (by rw [← e1]; exact hsc')
      (by rw [opsOn_map]; exact .inr hfg)
    rw [← e1] at h1
    rw [opsOn_map] at h3
    obtain ⟨r', rs', g1, g2⟩ := rs_run (E := wideOs sentry g) (table := wideTable) (good := goodW) (cv := cv8)
      (fun _ => rfl) (fun _ => flushOk_wide _ utf8Put cv8) tableOk_wide _ (rs_fresh (good := goodW) (cv := cv8) 32 ((goodW_iff 32).2 hsp) sock id) (wide_opsGood hsc')
    rw [g1] at h1
    injection h1 with h1
    subst h1
    have hgood : (r'.which e).good = true := by
      have a := g2.out.fmt.good
      have b := g2.err.fmt.good
      cases e
      · rw [opsOn_map] at a
        exact a.trans hfo.1
      · rw [opsOn_map] at b
        exact b.trans hfo.1
    refine ⟨r', g1, ⟨fun _ => hs, fun _ => hgood⟩, fun _ => ⟨rs, h2, ?_⟩⟩
    rw [hfo.2 _ h3, hch]
  · have h0 : GoodInv 0 False ((ReqStreams.fresh 32 sock id : ReqStreams UInt32).which e) := by
      cases e <;> exact ⟨rfl, rfl, rfl, Nat.zero_le _, fun _ => Nat.le_refl _, fun h => h.elim⟩
    obtain ⟨r1, n1, h1, h2, hp1⟩ : ∃ r1 n1, (ReqStreams.fresh 32 sock id).run (wideOs sentry g) (ops.map fun op => (e, op)) = .ok r1 ∧
        GoodInv n1 (False ∨ ∃ c ∈ ops.flatMap OOp.chars, ¬ isScalar c) (r1.which e) ∧ Portioned n1 [(.flush : OOp UInt32)] := by
      obtain ⟨r1, n1, h1, h2⟩ := grun (sentry := sentry) (g := g) (e := e) ops h0 hp
      exact ⟨r1, n1, h1, h2, trivial⟩
    obtain ⟨o', n', h3, h4, -, h5⟩ := gstep (sentry := sentry) (g := g) (e := e) h2 .flush [] hp1
    obtain ⟨r', h6, h7⟩ := on_which e (r := r1) (f := (·.step (wideOs sentry g e) .flush)) h3
    have hbad : ∃ c ∈ ops.flatMap OOp.chars, ¬ isScalar c := by
      refine Classical.byContradiction fun hn => hs fun c hc => Classical.byContradiction fun hn' => hn ⟨c, hc, hn'⟩
    have hng : ¬ (r'.which e).good = true := by
      rw [h7]
      intro hg
      have h8 := h4.waits hg
      rw [h5 rfl] at h8
      obtain ⟨c, hc, _⟩ := h4.bad (.inl (.inr hbad)) hg
      rw [List.length_eq_zero_iff.1 (Nat.le_zero.1 h8)] at hc
      cases hc
    refine ⟨r', ?_, ⟨fun h => absurd h hng, fun h => absurd h hs⟩, fun h => absurd h hng⟩
    have e1 : (ops ++ [OOp.flush]).map (fun op => (e, op)) = ops.map (fun op => (e, op)) ++ [(e, .flush)] := by simp
    rw [e1, rs_run_append, h1]
    simp only [Res.bind, ReqStreams.run, h6, Res.ok_bind]

/-- **C133 fails** for a string that does not fit into the buffer: `out << s` with a character that is not Unicode and 8192 others, then `flush()`. Nothing of the first 8192
characters is sent, the stream is good. -/
theorem C133_string_violated : (match (ReqStreams.fresh 32 4 7).run (wideOs true fun _ _ _ => 0) [(false, .insert (0xd800 :: List.replicate 8192 97)), (false, .flush)] with
    | .ok r => r.out.good && r.log.length == 1 && r.log.all fun p => (p.2.1.drop 8).take 1 == [97] && p.2.1[5]! == 1
    | _ => false) = true := by decide +kernel

/-- **C133 fails** for raw data: a character that is not Unicode, then `dump()`, then `flush()`: the text is lost, the stream is good. -/
theorem C133_dump_violated : (match (ReqStreams.fresh 32 4 7).run (wideOs true fun _ _ _ => 0) [(false, .insert [97, 0xd800]), (false, .dump b!"raw"), (false, .flush)] with
    | .ok r => r.out.good && r.log.map (fun p => (p.2.1.drop 8).take (p.2.1[5]!).toNat) == [b!"raw"]
    | _ => false) = true := by decide +kernel

example : Portioned 0 ([.insert [72, 105], .put 0xd800, .unit true, .char 33, .flush, .write [97]] : List (OOp UInt32)) := by
  simp [Portioned]
example : ¬ ∀ c ∈ ([.insert [72, 105], .put 0xd800] : List (OOp UInt32)).flatMap OOp.chars, isScalar c := by
  simp only [OOp.chars, List.flatMap_cons, List.flatMap_nil]
  intro h; exact absurd (h 0xd800 (by decide)) (by unfold isScalar; decide)

end Fcgi.Props
