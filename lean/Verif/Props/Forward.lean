import Verif.Lemmas.Forward
import Verif.Lemmas.Outgoing

/-! C62: messages that are passed on. -/

namespace HttpIo
open Spec

/-! ### C62 -/

section
variable [CaseMap] {σ τ ω : Type} [LawfulReader σ] [LawfulReader τ] [LawfulWriter ω]

theorem body_under {c : Cfg} {ρ : Type} (enc : Option Bytes) (n : Option Nat) (s : ρ) :
    (HttpBody.new c enc n s).under = some s := by
  unfold HttpBody.new
  split
  · rfl
  · cases n <;> rfl

theorem body_framing {c c' : Cfg} {ρ ρ' : Type} (enc : Option Bytes) (n : Option Nat) (s : ρ) (s' : ρ') :
    framing (HttpBody.new c enc n s) = framing (HttpBody.new c' enc n s') := by
  unfold HttpBody.new
  split
  · rfl
  · cases n <;> rfl

/-- A request that was parsed, serialized and parsed again is the same request, and nothing of what follows is taken,
whatever the transports do in between, if and only if no header but the first has a name that begins with a blank. -/
theorem C62_request_iff (hk : CaseKeeps) (c c' : Cfg) (s s' : σ) (r : HttpRequest c σ) (w : ω)
    (o : OutgoingRequest c ω) (u : τ) (rest : List Ev) (hp : HttpRequest.deserialize c s = (.ok r, s'))
    (hs : r.serialize (BufWriter.new c w) = .ok o) (hw : sent w = []) (hd : Delivers c' (trace u) (outgoingSent o) rest) :
    (∃ r' u', HttpRequest.deserialize c' u = (.ok r', u') ∧ r'.method = r.method ∧ r'.uri = r.uri ∧
      r'.version = r.version ∧ r'.headers = r.headers ∧ framing r'.body = framing r.body ∧ r'.body.under = some u' ∧
      trace u' = rest) ↔ BlankFirst r.headers.entries := by
  rw [(request_serialized_sent r w o hs).1, hw, List.nil_append] at hd
  unfold HttpRequest.deserialize at hp
  rcases hh : parseHead c parseRequestLine s with ⟨⟨⟨m, uri, v⟩, hs1, enc, n⟩ | _ | _, s1⟩ <;> rw [hh] at hp <;>
    simp only [Prod.mk.injEq, Res.ok.injEq, reduceCtorEq, false_and] at hp
  obtain ⟨rfl, rfl⟩ := hp
  obtain ⟨line, _, hl, _, hst, _⟩ := parseHead_inv hh
  obtain ⟨ht, hv1, hv2⟩ := parseRequestLine_inv hl hst
  obtain ⟨_, _, w3, w4⟩ := version_text v hv1 hv2
  have hline : RawLine (utf8 (methodName m) ++ [32] ++ uri ++ [32] ++ v.display) := by
    obtain ⟨_, t2, _, _, t5⟩ := ht
    have hmt : IsText (utf8 (methodName m)) := by
      rw [methodName_bytes]; exact isText_ascii (by cases m <;> decide)
    have hmc : ¬ HasCrLf (utf8 (methodName m)) := by
      rw [methodName_bytes]; unfold HasCrLf; cases m <;> decide
    have hvc : ¬ HasCrLf v.display := by rintro ⟨p, q, hpq⟩; apply w4; rw [← hpq]; simp
    refine ⟨by simp, ?_, ?_⟩
    · rw [show utf8 (methodName m) ++ [32] ++ uri ++ [32] ++ v.display =
        utf8 (methodName m) ++ 32 :: (uri ++ 32 :: v.display) by simp]
      exact not_hasCrLf_join (by decide) (by decide) hmc (not_hasCrLf_join (by decide) (by decide) t5 hvc)
    · exact isText_append (isText_append (isText_append (isText_append hmt (isText_ascii (by decide))) t2)
        (isText_ascii (by decide))) (isText_ascii w3)
  have hd' : Delivers c' (trace u) (utf8 (methodName m) ++ [32] ++ uri ++ [32] ++ v.display ++ [13, 10] ++
      headerText hs1.entries ++ [13, 10]) rest := by
    rw [HttpRequest.headPieces_flatten, ← methodName_bytes] at hd
    simpa using hd
  constructor
  · rintro ⟨r', u', h1, _, _, _, h2, _⟩
    refine Classical.byContradiction fun hb => ?_
    unfold HttpRequest.deserialize at h1
    rcases hx : parseHead c' parseRequestLine u with ⟨⟨⟨m', uri', v'⟩, hs2, enc', n'⟩ | _ | _, u1⟩ <;> rw [hx] at h1 <;>
      simp only [Prod.mk.injEq, Res.ok.injEq, reduceCtorEq, false_and] at h1
    obtain ⟨rfl, rfl⟩ := h1
    exact parseHead_changed hk hh hb hline hd' hx h2
  · intro hb
    obtain ⟨u', h1, h2⟩ := parseHead_again hk hh hb hline (parseRequestLine_version m ht v hv1 hv2) hd'
    exact ⟨_, u', by unfold HttpRequest.deserialize; rw [h1], rfl, rfl, rfl, rfl, body_framing _ _ _ _, body_under _ _ _, h2⟩

/-- What holds of C62: requests of which no header but the first has a name that begins with a blank. -/
theorem C62_request_partial (hk : CaseKeeps) (c c' : Cfg) (s s' : σ) (r : HttpRequest c σ) (w : ω)
    (o : OutgoingRequest c ω) (u : τ) (rest : List Ev) (hp : HttpRequest.deserialize c s = (.ok r, s'))
    (hb : BlankFirst r.headers.entries) (hs : r.serialize (BufWriter.new c w) = .ok o) (hw : sent w = [])
    (hd : Delivers c' (trace u) (outgoingSent o) rest) :
    ∃ r' u', HttpRequest.deserialize c' u = (.ok r', u') ∧ r'.method = r.method ∧ r'.uri = r.uri ∧
      r'.version = r.version ∧ r'.headers = r.headers ∧ framing r'.body = framing r.body ∧ r'.body.under = some u' ∧
      trace u' = rest :=
  (C62_request_iff hk c c' s s' r w o u rest hp hs hw hd).2 hb

/-- The same for responses. -/
theorem C62_response_iff (hk : CaseKeeps) (c c' : Cfg) (s s' : σ) (r : HttpResponse c (BufReader c σ)) (w w' : ω)
    (u : τ) (rest : List Ev) (hp : HttpResponse.deserialize c s = (.ok r, s'))
    (hs : r.serialize w = (.ok (), w')) (hw : sent w = []) (hd : Delivers c' (trace u) (sent w') rest) :
    (∃ r' u', HttpResponse.deserialize c' u = (.ok r', u') ∧ r'.version = r.version ∧ r'.status = r.status ∧
      r'.headers = r.headers ∧ framing r'.body = framing r.body ∧ r'.body.under = some (BufReader.new c' u') ∧
      trace u' = rest) ↔ BlankFirst r.headers.entries := by
  unfold HttpResponse.serialize at hs
  obtain ⟨_, p, _, g2, g3⟩ := writePieces_sent hs
  rw [g2, g3 rfl, hw, List.nil_append] at hd
  unfold HttpResponse.deserialize at hp
  rcases hh : parseHead c parseStatusLine s with ⟨⟨⟨v, st⟩, hs1, enc, n⟩ | _ | _, s1⟩ <;> rw [hh] at hp <;>
    simp only [Prod.mk.injEq, Res.ok.injEq, reduceCtorEq, false_and] at hp
  obtain ⟨rfl, rfl⟩ := hp
  obtain ⟨line, _, hl, _, hst, _⟩ := parseHead_inv hh
  obtain ⟨hv1, hv2, hcode⟩ := parseStatusLine_inv hst
  obtain ⟨w1, _, w3, w4⟩ := version_text v hv1 hv2
  have hline : RawLine (v.display ++ [32] ++ st.display) := by
    have hvc : ¬ HasCrLf v.display := by rintro ⟨p, q, hpq⟩; apply w4; rw [← hpq]; simp
    refine ⟨by simp, ?_, ?_⟩
    · rw [show v.display ++ [32] ++ st.display = v.display ++ 32 :: st.display by simp]
      exact not_hasCrLf_join (by decide) (by decide) hvc (status_display_noCrLf st)
    · exact isText_append (isText_append (isText_ascii w3) (isText_ascii (by decide)))
        (isText_ascii (status_display_valid st))
  have hst' := parseStatusLine_version st v hv1 hv2
  rw [show HttpStatus.fromCode st.toCode = st from hcode] at hst'
  have hd' : Delivers c' (trace u) (v.display ++ [32] ++ st.display ++ [13, 10] ++ headerText hs1.entries ++ [13, 10]) rest := by
    rw [HttpResponse.headPieces_flatten] at hd
    simpa using hd
  constructor
  · rintro ⟨r', u', h1, _, _, h2, _⟩
    refine Classical.byContradiction fun hb => ?_
    unfold HttpResponse.deserialize at h1
    rcases hx : parseHead c' parseStatusLine u with ⟨⟨⟨v', st'⟩, hs2, enc', n'⟩ | _ | _, u1⟩ <;> rw [hx] at h1 <;>
      simp only [Prod.mk.injEq, Res.ok.injEq, reduceCtorEq, false_and] at h1
    obtain ⟨rfl, rfl⟩ := h1
    exact parseHead_changed hk hh hb hline hd' hx h2
  · intro hb
    obtain ⟨u', h1, h2⟩ := parseHead_again hk hh hb hline hst' hd'
    exact ⟨_, u', by unfold HttpResponse.deserialize; rw [h1], rfl, rfl, rfl, body_framing _ _ _ _, body_under _ _ _, h2⟩

/-- What holds of C62, for responses. -/
theorem C62_response_partial (hk : CaseKeeps) (c c' : Cfg) (s s' : σ) (r : HttpResponse c (BufReader c σ)) (w w' : ω)
    (u : τ) (rest : List Ev) (hp : HttpResponse.deserialize c s = (.ok r, s'))
    (hb : BlankFirst r.headers.entries) (hs : r.serialize w = (.ok (), w')) (hw : sent w = [])
    (hd : Delivers c' (trace u) (sent w') rest) :
    ∃ r' u', HttpResponse.deserialize c' u = (.ok r', u') ∧ r'.version = r.version ∧ r'.status = r.status ∧
      r'.headers = r.headers ∧ framing r'.body = framing r.body ∧ r'.body.under = some (BufReader.new c' u') ∧
      trace u' = rest :=
  (C62_response_iff hk c c' s s' r w w' u rest hp hs hw hd).2 hb

end

/-- What comes of a response head: its headers as parsed, and as parsed again after it was serialized. -/
def headersTwice (c : Cfg) (bs : Bytes) : Option (HttpHeaders × HttpHeaders) :=
  let _ := asciiCase
  match HttpResponse.deserialize c (Wire.mk [.data bs]) with
  | (.ok r, _) =>
    match r.serialize (Sink.mk [] 0 []) with
    | (.ok (), w) =>
      match HttpResponse.deserialize c (Wire.mk [.data w.got]) with
      | (.ok r', _) => some (r.headers, r'.headers)
      | _ => none
    | _ => none
  | _ => none

/-- False without the condition: a header block whose first line begins with a blank gives a header with such a name.
When it is written after another one, it is read as the continuation of that one. -/
theorem C62_forward_false (c : Cfg) :
    ∃ bs a b, headersTwice c bs = some (a, b) ∧
      a.entries = [(b!"", b!"2"), (b!" x", b!"1")] ∧ b.entries = [(b!"", b!"2 x: 1")] ∧ a ≠ b := by
  refine ⟨b!"HTTP/1.1 200 OK\r\n x: 1\r\n: 2\r\n\r\n", ⟨[(b!"", b!"2"), (b!" x", b!"1")]⟩, ⟨[(b!"", b!"2 x: 1")]⟩,
    ?_, rfl, rfl, by decide⟩
  rcases c with ⟨_ | _⟩ <;> decide +kernel

/-- The ASCII case mapping is such a `str::to_lowercase`. -/
theorem asciiCase_keeps : @CaseKeeps asciiCase := by
  have hne : ∀ x : UInt8, ¬ (65 ≤ x.toNat ∧ x.toNat ≤ 90) → asciiLowerByte x = x := by
    rw [UInt8.forall_iff_fin]; decide +kernel
  have mem : ∀ x : UInt8, (asciiLowerByte x = 58 → x = 58) ∧ (asciiLowerByte x = 13 → x = 13) ∧
      (asciiLowerByte x = 10 → x = 10) := by
    rw [UInt8.forall_iff_fin]; decide +kernel
  refine @CaseKeeps.mk asciiCase ?_ ?_ ?_
  · rintro s ⟨vs, hvs, rfl⟩
    refine ⟨vs.map fun v => if 65 ≤ v ∧ v ≤ 90 then v + 32 else v, ?_, ?_⟩
    · intro v hv
      obtain ⟨v', hv', rfl⟩ := List.mem_map.1 hv
      have := hvs v' hv'
      unfold Scalar at this ⊢
      split <;> omega
    · show (vs.flatMap utf8Char).map asciiLowerByte = _
      induction vs with
      | nil => rfl
      | cons v vs ih =>
        rw [List.flatMap_cons, List.map_append, ih fun v hv => hvs v (List.mem_cons_of_mem _ hv), List.map_cons,
          List.flatMap_cons]
        congr 1
        have hs : v < 0x110000 := by
          have := hvs v (List.mem_cons_self ..)
          unfold Scalar at this
          omega
        by_cases hl : 65 ≤ v ∧ v ≤ 90
        · rw [if_pos hl]
          obtain ⟨k, rfl⟩ : ∃ k, v = 65 + k := ⟨v - 65, by omega⟩
          have hk : k < 26 := by omega
          clear hl hs hvs ih
          revert k
          decide
        · rw [if_neg hl]
          have hid : ∀ x ∈ utf8Char v, asciiLowerByte x = x := by
            intro x hx
            apply hne
            unfold utf8Char at hx
            split at hx
            · simp only [List.mem_cons, List.not_mem_nil, or_false] at hx
              subst hx
              simp only [UInt8.toNat_ofNat']
              omega
            · split at hx
              · simp only [List.mem_cons, List.not_mem_nil, or_false] at hx
                rcases hx with rfl | rfl <;> simp only [UInt8.toNat_ofNat'] <;> omega
              · split at hx
                · simp only [List.mem_cons, List.not_mem_nil, or_false] at hx
                  rcases hx with rfl | rfl | rfl <;> simp only [UInt8.toNat_ofNat'] <;> omega
                · simp only [List.mem_cons, List.not_mem_nil, or_false] at hx
                  rcases hx with rfl | rfl | rfl | rfl <;> simp only [UInt8.toNat_ofNat'] <;> omega
          rw [List.map_congr_left hid, List.map_id']
  · intro s _ h hm
    obtain ⟨x, hx, he⟩ := List.mem_map.1 hm
    exact h ((mem x).1 he ▸ hx)
  · intro s _ h hm
    rw [hasCrLf_iff] at h hm
    obtain ⟨i, h1, h2⟩ := hm
    refine h ⟨i, ?_, ?_⟩
    · obtain ⟨x, hx, he⟩ := Option.map_eq_some_iff.1 ((List.getElem?_map ..).symm.trans h1)
      rw [hx, (mem x).2.1 he]
    · obtain ⟨x, hx, he⟩ := Option.map_eq_some_iff.1 ((List.getElem?_map ..).symm.trans h2)
      rw [hx, (mem x).2.2 he]

/-- Witness: a folded header, a repeated one and one whose name begins with a blank (the first), other version. -/
example : let _ := asciiCase
    (match (HttpResponse.deserialize ⟨false⟩ (Wire.mk [.data b!"HTTP/1.0 999 Strange\r\n\tA: 1\r\nB: 2\r\n\t3\r\nb: é"
        , .data b!"\r\r\n\r\nbody"])).1 with
      | .ok r => decide (r.version.minor = 0 ∧ r.headers.entries = [(b!"\ta", b!"1"), (b!"b", b!"é\r")] ∧
          r.headPieces.flatten = b!"HTTP/1.0 999\r\n\ta: 1\r\nb: é\r\r\n\r\n")
      | _ => false) = true ∧
    BlankFirst [(b!"\ta", b!"1"), (b!"b", b!"é\r")] ∧
    headersTwice ⟨false⟩ b!"HTTP/1.0 999 Strange\r\n\tA: 1\r\nB: 2\r\n\t3\r\nb: é\r\r\n\r\nbody" =
      some (⟨[(b!"\ta", b!"1"), (b!"b", b!"é\r")]⟩, ⟨[(b!"\ta", b!"1"), (b!"b", b!"é\r")]⟩) := by
  refine ⟨by decide +kernel, ?_, by decide +kernel⟩
  intro kv hkv
  simp only [List.tail_cons, List.mem_cons, List.not_mem_nil, or_false] at hkv
  subst hkv
  rw [← startsBlank_iff]
  decide

/-- Witness for requests: a version and a target as no client of this crate writes them; the body is what follows. -/
example : let _ := asciiCase
    (match (HttpRequest.deserialize ⟨true⟩ (Wire.mk [.data b!"PUT \tx?é=1 \t HTTP/3.7 ignored\r\nContent-Length: 4\r\nA: \t1"
        , .fault (.io .interrupted), .data b!"\r\n\r\nbody"])).1 with
      | .ok r => decide (r.method = .Put ∧ r.uri = b!"x?é=1" ∧ r.version.major = 3 ∧
          r.headers.entries = [(b!"a", b!"\t1"), (b!"content-length", b!"4")] ∧
          r.headPieces.flatten = b!"PUT x?é=1 HTTP/3.7\r\na: \t1\r\ncontent-length: 4\r\n\r\n")
      | _ => false) = true ∧
    BlankFirst [(b!"a", b!"\t1"), (b!"content-length", b!"4")] := by
  refine ⟨by decide +kernel, ?_⟩
  intro kv hkv
  simp only [List.tail_cons, List.mem_cons, List.not_mem_nil, or_false] at hkv
  subst hkv
  rw [← startsBlank_iff]
  decide

end HttpIo
