import Verif.Spec.Prints
import Verif.Props.Received
import Verif.Props.MorePrograms
import Verif.Props.Cut

/-! C190: how the client programs of the examples end and what they print, whatever bytes the servers send. -/

namespace HttpIo
open Spec

theorem dechunks_final {c : Cfg} {stop : Option Err} (hf : Final c stop) {x d : Bytes} {e : Err}
    (h : Dechunks c stop x d (some e)) : ¬ Retried c e := by
  generalize hr : some e = r at h
  induction h with
  | last => simp at hr
  | chunk _ _ ih => exact ih hr
  | _ =>
    simp only [Option.some.injEq] at hr
    subst hr
    cases stop with
    | none => rcases c with ⟨_ | _⟩ <;> simp [cutError, sizeError, lineError, Retried]
    | some e =>
      have h1 := hf e rfl
      rcases c with ⟨_ | _⟩ <;> simp_all [cutError, sizeError, lineError, Retried]

section
variable [CaseMap] {c : Cfg} {ω α ρ σ φ ο : Type} [LawfulReader ρ] [ZeroReader ρ] [LawfulWriter σ] [LawfulReader φ] [LawfulWriter ο]

omit [ZeroReader ρ] [LawfulReader ρ] [LawfulWriter σ] [LawfulReader φ] [LawfulWriter ο] in
/-- The error that ends a body is none that is tried again. -/
theorem replyBody_final {stop : Option Err} (hf : Final c stop) {hist : List (Bytes × Bytes)} {rest d : Bytes} {e : Err}
    (h : ReplyBody c stop hist rest d (some e)) : ¬ Retried c e := by
  generalize hr : some e = r at h
  cases h with
  | told h =>
    cases h with
    | chunked _ h => subst hr; exact dechunks_final hf h
    | limited =>
      split at hr
      · exact hf e hr.symm
      · simp at hr
  | tilClose => exact hf e hr.symm

theorem received_final {stop : Option Err} (hf : Final c stop) {input d : Bytes} {e : Err}
    (h : Received c stop input (.body d (some e))) : ¬ Retried c e := by
  cases h with
  | body _ h => exact replyBody_final hf h

omit [CaseMap] [ZeroReader ρ] in
/-- Printing a body that ends or fails. -/
theorem printBody_trace {Q : ο → Prop} (hq : Reliable c Q) {body : ρ} {out : ο} (ho : Q out) {d : Bytes} {r : Option Err}
    (ht : trace body = d.map .byte ++ endEvents r) (hf : Final c r) :
    ∃ body' out', printBody (c := c) body out = ((printed (.body d r)).1, body', out') ∧ Q out' ∧ sent out' = sent out ++ d := by
  cases r with
  | none => exact printBody_ok hq ho (t' := []) (by rw [ht]; exact delivers_map c d []) (by simp [Ended])
  | some e =>
    obtain ⟨b, o, h1, h2, h3⟩ := copy_fails hq (r := body) (n := 0) ho (bs := d) (e := e) (t' := [.fault e]) (t'' := [])
      (by rw [ht]; exact delivers_map c d _) ⟨hf e rfl, [], rfl, fun _ h => absurd h (List.not_mem_nil)⟩
    exact ⟨b, o, by unfold printBody; rw [h1]; rfl, h3, h2⟩

/-! ### C190 -/

/-- The example client, for GET and PUT and whatever the server sends, until the connection ends or fails: how it ends and what it
has printed is what the rules say. -/
theorem C190_client {P : σ → Prop} (hr : Reliable c P) {Q : ο → Prop} (hq : Reliable c Q) (N : StreamConnector ω α (Duplex ρ σ))
    (openFile : Bytes → Option φ) (m : HttpMethod) (data up : Bytes) (hup : Uploads c openFile data m up)
    (url : Url) (hu : Askable url) (w w1 w2 : ω) (a : α) (d : Duplex ρ σ)
    (ha : N.toStreamAddr url w = (.ok a, w1)) (hc : N.connect a w1 = (.ok d, w2)) (hP : P d.wr)
    (stop : Option Err) (hstop : Final c stop) (input : Bytes) (ht : trace d.rd = input.map .byte ++ endEvents stop)
    (out : ο) (ho : Q out) (f : Fate) (hf : Received c stop input f) :
    ∃ out', clientProgram c N openFile m data url w out = ((printed f).1, out', w2) ∧ sent out' = sent out ++ (printed f).2 := by
  obtain ⟨hs, hu, host, hhost⟩ := hu
  have key : ∀ (res : Res (HttpBody c (BufReader c (Duplex ρ σ)))) (prog : Res Unit × ο × ω), TraceFate res f →
      (∀ e, res = .err e → prog = (.err e, out, w2)) → (res = .panic → prog = (.panic, out, w2)) →
      (∀ x, res = .ok x → prog = ((printBody (c := c) x out).1, (printBody (c := c) x out).2.2, w2)) →
      ∃ out', prog = ((printed f).1, out', w2) ∧ sent out' = sent out ++ (printed f).2 := by
    intro res prog hres k1 k2 k3
    cases f with
    | panics => exact ⟨out, k2 hres, by simp [printed]⟩
    | fails e => exact ⟨out, k1 _ hres, by simp [printed]⟩
    | body b r =>
      obtain ⟨x, h1, h2⟩ := hres
      obtain ⟨x', out', g1, _, g3⟩ := printBody_trace hq ho h2 (fun e he => received_final hstop (he ▸ hf))
      refine ⟨out', by rw [k3 x h1, g1], ?_⟩
      rw [g3]; cases r <;> rfl
  cases hup with
  | get =>
    obtain ⟨res, h1, h2⟩ := get_traced hr N url host hs hu hhost w w1 w2 a d ha hc hP stop hstop input ht f hf
    refine key res _ h2 ?_ ?_ ?_ <;> (unfold clientProgram; dsimp only; rw [h1])
    · rintro e rfl; rfl
    · rintro rfl; rfl
    · rintro x rfl; rfl
  | @file file up t' hfile hd he =>
    obtain ⟨res, h1, h2⟩ := put_traced hr N url host hs hu hhost file up t' hd he w w1 w2 a d ha hc hP stop hstop input ht f hf
    refine key res _ h2 ?_ ?_ ?_ <;> (unfold clientProgram; dsimp only; rw [hfile]; dsimp only; rw [h1])
    · rintro e rfl; rfl
    · rintro rfl; rfl
    · rintro x rfl; rfl
  | text hfile =>
    obtain ⟨res, h1, h2⟩ := put_traced hr N url host hs hu hhost (SliceReader.mk data) data []
      (by show Delivers c (data.map .byte) data []; exact delivers_map' c data) (by simp [Ended])
      w w1 w2 a d ha hc hP stop hstop input ht f hf
    refine key res _ h2 ?_ ?_ ?_ <;> (unfold clientProgram; dsimp only; rw [hfile]; dsimp only; rw [h1])
    · rintro e rfl; rfl
    · rintro rfl; rfl
    · rintro x rfl; rfl

/-- The program of the README: if the first answer has no body that can be read to its end, it ends as the example client does, and
the second server never hears of it. -/
theorem C190_readme_first {P : σ → Prop} (hr : Reliable c P) {Q : ο → Prop} (hq : Reliable c Q) (N : StreamConnector ω α (Duplex ρ σ))
    (file : Except Err φ) (url : Url) (url' : Option Url) (hu : Askable url) (w w1 w2 : ω) (a : α) (d : Duplex ρ σ)
    (ha : N.toStreamAddr url w = (.ok a, w1)) (hc : N.connect a w1 = (.ok d, w2)) (hP : P d.wr)
    (stop : Option Err) (hstop : Final c stop) (input : Bytes) (ht : trace d.rd = input.map .byte ++ endEvents stop)
    (out : ο) (ho : Q out) (f : Fate) (hf : Received c stop input f) (hw : ¬ Whole f) :
    ∃ out', readmeProgram c N (some url) url' file w out = ((printed f).1, out', w2) ∧ sent out' = sent out ++ (printed f).2 := by
  obtain ⟨hs, hu, host, hhost⟩ := hu
  obtain ⟨res, h1, h2⟩ := get_traced hr N url host hs hu hhost w w1 w2 a d ha hc hP stop hstop input ht f hf
  unfold readmeProgram
  rw [h1]
  cases f with
  | panics => cases h2; exact ⟨out, rfl, by simp [printed]⟩
  | fails e => cases h2; exact ⟨out, rfl, by simp [printed]⟩
  | body b r =>
    obtain ⟨x, rfl, h2⟩ := h2
    obtain ⟨x', out', g1, _, g3⟩ := printBody_trace hq ho h2 (fun e he => received_final hstop (he ▸ hf))
    cases r with
    | none => exact absurd trivial hw
    | some e =>
      rw [printed] at g1
      exact ⟨out', by dsimp only; rw [g1]; rfl, g3⟩

/-- If it has one, the program has printed it, and then, if the file cannot be opened, ends with the error of that; if it can, it ends
as the second answer says, of which it does not look at the body. -/
theorem C190_readme_second {P : σ → Prop} (hr : Reliable c P) {Q : ο → Prop} (hq : Reliable c Q) (N : StreamConnector ω α (Duplex ρ σ))
    (url url' : Url) (hu : Askable url) (hu' : Askable url') (w w1 w2 w3 w4 : ω) (a a' : α) (d d' : Duplex ρ σ)
    (ha : N.toStreamAddr url w = (.ok a, w1)) (hc : N.connect a w1 = (.ok d, w2)) (hP : P d.wr)
    (stop : Option Err) (hstop : Final c stop) (input : Bytes) (ht : trace d.rd = input.map .byte ++ endEvents stop)
    (out : ο) (ho : Q out) (b : Bytes) (hf : Received c stop input (.body b none)) :
    ∃ out', sent out' = sent out ++ b ∧
      (∀ e : Err, readmeProgram c N (some url) (some url') (.error e : Except Err φ) w out = (.err e, out', w2)) ∧
      ∀ (file : φ) (up : Bytes) (t' : List Ev), Delivers c (trace file) up t' → Ended c t' →
        N.toStreamAddr url' w2 = (.ok a', w3) → N.connect a' w3 = (.ok d', w4) → P d'.wr →
        ∀ (stop' : Option Err) (input' : Bytes), Final c stop' → trace d'.rd = input'.map .byte ++ endEvents stop' →
        ∀ f', Received c stop' input' f' →
          readmeProgram c N (some url) (some url') (.ok file) w out = (unseen f', out', w4) := by
  obtain ⟨hs, hu, host, hhost⟩ := hu
  obtain ⟨hs', hu', host', hhost'⟩ := hu'
  obtain ⟨res, h1, x, rfl, h2⟩ := get_traced hr N url host hs hu hhost w w1 w2 a d ha hc hP stop hstop input ht _ hf
  obtain ⟨x', out', g1, _, g3⟩ := printBody_trace hq ho h2 (fun e he => by simp at he)
  rw [printed] at g1
  refine ⟨out', g3, fun e => ?_, ?_⟩
  · unfold readmeProgram
    rw [h1]; dsimp only; rw [g1]
  · intro file up t' hd he ha' hc' hP' stop' input' hstop' ht' f' hf'
    obtain ⟨res', k1, k2⟩ := put_traced hr N url' host' hs' hu' hhost' file up t' hd he w2 w3 w4 a' d' ha' hc' hP' stop' hstop' input'
      ht' f' hf'
    unfold readmeProgram
    rw [h1]; dsimp only; rw [g1]; dsimp only; rw [k1]
    cases f' with
    | panics => cases k2; rfl
    | fails e => cases k2; rfl
    | body b r => obtain ⟨x, rfl, _⟩ := k2; rfl

end

/-- A network with two servers, the first for the first connection. -/
def twoServers (first second : Bytes) : StreamConnector Nat Bool (Duplex Wire Sink) :=
  ⟨fun a w => (.ok ⟨⟨[.data (if a then first else second)]⟩, ⟨[], 0, [.accept 2]⟩⟩, w), fun _ w => (.ok (w = 0), w + 1)⟩

theorem hexText {t : Bytes} {n : Nat} (h : parseHex64 t = .ok n) : UnsignedText 16 t n := ((C07_hex_parse t n).1 h).1

/-- Witness for `C190_client` (a chunked answer that is cut off: the program prints what there is and fails) and
`C190_readme_first` (the same answer: no second request). -/
example (c : Cfg) : let _ := asciiCase
    let answer := b!"HTTP/1.1 200 OK\r\nTransfer-Encoding: chunked\r\n\r\n" ++ b!"2\r\nab\r\n5\r\nde"
    (∃ out', clientProgram c (twoServers answer []) (fun _ => (none : Option SliceReader)) .Put b!"text" sampleUrl 0 (Sink.mk [] 0 []) =
      (.err (cutError c none), out', 1) ∧ out'.got = b!"abde") ∧
    ∃ out', readmeProgram c (twoServers answer []) (some sampleUrl) none (.ok (SliceReader.mk [])) 0 (Sink.mk [] 0 []) =
      (.err (cutError c none), out', 1) ∧ out'.got = b!"abde" := by
  intro _ answer
  have hplan : ∀ a ∈ [WPlan.accept 2], (∃ n, a = .accept (n + 1)) ∨ ∃ e, a = .fault e ∧ Retried c e := by
    intro a ha; simp only [List.mem_cons, List.not_mem_nil, or_false] at ha; exact .inl ⟨1, ha⟩
  have hf : Received c none answer (.body b!"abde" (some (cutError c none))) :=
    chunked_answer c none (.chunk (ch := ⟨b!"2", b!"ab", b!"\r\n"⟩) (rest := b!"5\r\nde") (d := b!"de")
      ⟨hexText (by decide +kernel), by decide, by decide, rfl⟩
      (.short (size := b!"5") (d := b!"de") (n := 5) (hexText (by decide +kernel)) (by decide) (by decide)))
  have hfin : Final c none := by intro e h; simp at h
  exact ⟨C190_client (sink_reliable c) (sink_reliable c) (twoServers answer []) (fun _ => (none : Option SliceReader)) .Put b!"text"
      b!"text" (.text rfl) sampleUrl sampleUrl_askable 0 1 1 true _ rfl rfl hplan none hfin answer rfl (Sink.mk [] 0 []) (by simp) _ hf,
    C190_readme_first (sink_reliable c) (sink_reliable c) (twoServers answer []) (.ok (SliceReader.mk [])) sampleUrl none
      sampleUrl_askable 0 1 1 true _ rfl rfl hplan none hfin answer rfl (Sink.mk [] 0 []) (by simp) _ hf id⟩

/-- Witness for `C190_readme_second`: the second answer is cut off, and the program says that all is well. -/
example (c : Cfg) : let _ := asciiCase
    let answer := b!"HTTP/1.1 200 OK\r\nTransfer-Encoding: chunked\r\n\r\n" ++ b!"2\r\nab\r\n0\r\n\r\n"
    let answer' := b!"HTTP/1.1 200 OK\r\nTransfer-Encoding: chunked\r\n\r\n" ++ b!"5\r\nde"
    ∃ out', out'.got = b!"ab" ∧
      readmeProgram c (twoServers answer answer') (some sampleUrl) (some sampleUrl) (.error .unexpectedEof : Except Err SliceReader) 0
        (Sink.mk [] 0 []) = (.err .unexpectedEof, out', 1) ∧
      readmeProgram c (twoServers answer answer') (some sampleUrl) (some sampleUrl) (.ok (SliceReader.mk b!"file")) 0
        (Sink.mk [] 0 []) = (.ok (), out', 2) := by
  intro _ answer answer'
  have hplan : ∀ a ∈ [WPlan.accept 2], (∃ n, a = .accept (n + 1)) ∨ ∃ e, a = .fault e ∧ Retried c e := by
    intro a ha; simp only [List.mem_cons, List.not_mem_nil, or_false] at ha; exact .inl ⟨1, ha⟩
  have hf : Received c none answer (.body b!"ab" none) :=
    chunked_answer c none (.chunk (ch := ⟨b!"2", b!"ab", b!"\r\n"⟩) (rest := b!"0\r\n\r\n") (d := [])
      ⟨hexText (by decide +kernel), by decide, by decide, rfl⟩
      (.last (size := b!"0") (rest := b!"\r\n") (hexText (by decide +kernel))))
  have hf' : Received c none answer' (.body b!"de" (some (cutError c none))) :=
    chunked_answer c none (.short (size := b!"5") (d := b!"de") (n := 5) (hexText (by decide +kernel)) (by decide) (by decide))
  have hfin : Final c none := by intro e h; simp at h
  obtain ⟨out', h1, h2, h3⟩ := C190_readme_second (φ := SliceReader) (sink_reliable c) (sink_reliable c) (twoServers answer answer') sampleUrl sampleUrl
    sampleUrl_askable sampleUrl_askable 0 1 1 2 2 true false _ _ rfl rfl hplan none hfin answer rfl (Sink.mk [] 0 []) (by simp) _ hf
  exact ⟨out', h1, h2 _, h3 (SliceReader.mk b!"file") b!"file" [] (by show Delivers c (b!"file".map .byte) _ _; exact delivers_map' _ _)
    (by simp [Ended]) rfl rfl hplan none answer' hfin rfl _ hf'⟩

end HttpIo
