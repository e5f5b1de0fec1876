import Verif.Props.Early
import Verif.Lemmas.Peer

/-! C166: how much of a stream the parsers of heads take. -/

namespace HttpIo
open Spec

/-- The stream with more after it. -/
def Evs.add (s : Evs) (more : List Ev) : Evs := ⟨trace s ++ more⟩

@[simp] theorem Evs.trace_add (s : Evs) (more : List Ev) : trace (s.add more) = trace s ++ more := rfl

/-- A run on the stream `s` either does not depend on what follows `s`, or takes some of what follows. -/
def Splits {α : Type} (f : Evs → α × Evs) (s : Evs) : Prop :=
  (∀ more, f (s.add more) = ((f s).1, (f s).2.add more)) ∨
  ∀ more, more ≠ [] → (trace (f (s.add more)).2).length < more.length

theorem innerNextT_le (c : Cfg) (line : Bytes) (t : List Ev) : (innerNextT c line t).2.length ≤ t.length := by
  fun_induction innerNextT c line t <;> simp_all <;> omega

theorem innerNextT_lt (c : Cfg) (line : Bytes) (t : List Ev) (ht : t ≠ []) : (innerNextT c line t).2.length < t.length := by
  cases t with
  | nil => exact absurd rfl ht
  | cons ev t =>
    cases ev with
    | byte b =>
      rw [innerNextT]
      split
      · simp
      · have := innerNextT_le c (line ++ [b]) t; simp; omega
    | fault e =>
      rw [innerNextT]
      split
      · have := innerNextT_le c line t; simp; omega
      · simp

theorem innerNextT_splits (c : Cfg) (line : Bytes) (t : List Ev) :
    (∀ more, innerNextT c line (t ++ more) = ((innerNextT c line t).1, (innerNextT c line t).2 ++ more)) ∨
    ∀ more, more ≠ [] → (innerNextT c line (t ++ more)).2.length < more.length := by
  fun_induction innerNextT c line t with
  | case1 line => exact .inr fun more hm => innerNextT_lt c line more hm
  | case2 line b t r hr => exact .inl fun more => by simp [innerNextT, hr]
  | case3 line b t hr ih => simpa [innerNextT, hr] using ih
  | case4 line e t hr ih => simpa [innerNextT, hr] using ih
  | case5 line e t hr => exact .inl fun more => by simp [innerNextT, hr]

theorem Evs.pair {α : Type} {x : α × Evs} {a : α} {t : List Ev} (h : (x.1, trace x.2) = (a, t)) : x = (a, ⟨t⟩) := by
  rcases x with ⟨y, z⟩
  simp only [Prod.mk.injEq] at h
  rw [h.1, Evs.eta z t h.2]

theorem innerNext_splits (c : Cfg) (s : Evs) : Splits (innerNext c) s := by
  have hs := Evs.pair (innerNextLoop_trace c [] s)
  have hu := fun more => Evs.pair (innerNextLoop_trace c [] (s.add more))
  unfold Splits innerNext
  rw [hs]
  rcases innerNextT_splits c [] (trace s) with h | h
  · left; intro more; rw [hu, Evs.trace_add, h]; rfl
  · right; intro more hm; rw [hu, Evs.trace_add]; exact h more hm

theorem Splits.map {α β : Type} {f : Evs → α × Evs} {g : Evs → β × Evs} {s : Evs} (φ : α → β)
    (h : ∀ x, g x = (φ (f x).1, (f x).2)) (hf : Splits f s) : Splits g s := by
  rcases hf with hf | hf
  · left; intro more; rw [h, h, hf]
  · right; intro more hm; rw [h]; exact hf more hm

theorem crlfNext_splits (c : Cfg) (s : Evs) : Splits (crlfNext c) s := by
  refine (innerNext_splits c s).map (fun r => match r with
    | .error e => some (.error e) | .ok none => none | .ok (some l) => some (.ok l)) fun x => ?_
  unfold crlfNext
  rcases innerNext c x with ⟨_ | _ | _, _⟩ <;> rfl

theorem expectNext_splits (c : Cfg) (s : Evs) : Splits (expectNext c) s := by
  refine (innerNext_splits c s).map (fun r => match r with
    | .error e => .error e | .ok none => .error .unexpectedEof | .ok (some l) => .ok l) fun x => ?_
  unfold expectNext
  rcases innerNext c x with ⟨_ | _ | _, _⟩ <;> rfl

/-- No more is left than there was. -/
theorem Evs.kept (n : Nat) : ReadKept fun s : Evs => (trace s).length ≤ n :=
  ⟨fun s k h => Nat.le_trans (read_suffix s k).length_le h⟩

theorem gather_next {c : Cfg} {line next : Bytes} {s s' : Evs} (h : crlfNext c s = (some (.ok next), s')) :
    HttpHeaders.gather c line s = if startsWith next b!" " || startsWith next b!"\t"
      then HttpHeaders.gather c (line ++ next) s' else (line, some (.ok next), s') := by
  conv => lhs; unfold HttpHeaders.gather
  split
  · rename_i heq; rw [h] at heq; cases heq; rfl
  · rename_i hno heq; rw [h] at heq; cases heq; exact absurd rfl (hno _)

theorem gather_stop {c : Cfg} {line : Bytes} {item : Option (Except Err Bytes)} {s s' : Evs} (h : crlfNext c s = (item, s'))
    (hno : ∀ next, item ≠ some (.ok next)) : HttpHeaders.gather c line s = (line, item, s') := by
  unfold HttpHeaders.gather
  split
  · rename_i heq; rw [h] at heq; cases heq; exact absurd rfl (hno _)
  · rename_i heq; rw [h] at heq; cases heq; rfl

theorem gather_after (c : Cfg) (line : Bytes) (s : Evs) :
    (trace (HttpHeaders.gather c line s).2.2).length ≤ (trace (crlfNext c s).2).length := by
  rcases hc : crlfNext c s with ⟨item, s'⟩
  by_cases h : ∃ next, item = some (.ok next)
  · obtain ⟨next, rfl⟩ := h
    rw [gather_next hc]
    split
    · exact (HttpHeaders.gather_progress c _ s').1
    · exact Nat.le_refl _
  · rw [gather_stop hc fun next hn => h ⟨next, hn⟩]
    exact Nat.le_refl _

/-- `gather`, as a run with one result. -/
def gathered (c : Cfg) (line : Bytes) (s : Evs) : (Bytes × Option (Except Err Bytes)) × Evs :=
  (((HttpHeaders.gather c line s).1, (HttpHeaders.gather c line s).2.1), (HttpHeaders.gather c line s).2.2)

theorem gather_splits (c : Cfg) (line : Bytes) (s : Evs) : Splits (gathered c line) s := by
  fun_induction HttpHeaders.gather c line s with
  | case1 line s next s' hc hb ih =>
    rcases crlfNext_splits c s with h | h
    · rw [hc] at h
      have e0 : gathered c line s = gathered c (line ++ next) s' := by
        unfold gathered; rw [gather_next hc, if_pos hb]
      have e : ∀ more, gathered c line (s.add more) = gathered c (line ++ next) (s'.add more) := fun more => by
        unfold gathered; rw [gather_next (h more), if_pos hb]
      rcases ih with ih | ih
      · left; intro more; rw [e, e0, ih]
      · right; intro more hm; rw [e]; exact ih more hm
    · right; intro more hm
      exact Nat.lt_of_le_of_lt (gather_after c line _) (h more hm)
  | case2 line s next s' hc hb =>
    rcases crlfNext_splits c s with h | h
    · rw [hc] at h
      left; intro more
      unfold gathered; rw [gather_next (h more), gather_next hc, if_neg hb, if_neg hb]
    · right; intro more hm
      exact Nat.lt_of_le_of_lt (gather_after c line _) (h more hm)
  | case3 line s item s' hno hc =>
    rcases crlfNext_splits c s with h | h
    · rw [hc] at h
      left; intro more
      unfold gathered; rw [gather_stop (h more) hno, gather_stop hc hno]
    · right; intro more hm
      exact Nat.lt_of_le_of_lt (gather_after c line _) (h more hm)

variable [CaseMap]

theorem loop_after (c : Cfg) (line : Bytes) (acc : List HttpHeader) (s : Evs) :
    (trace (HttpHeaders.deserializeLoop c (some (.ok line)) acc s).2).length ≤ (trace (gathered c line s).2).length := by
  unfold HttpHeaders.deserializeLoop gathered
  rcases HttpHeaders.gather c line s with ⟨line', item', s'⟩
  dsimp only
  cases HttpHeader.deserialize line' with
  | ok hd => exact (Evs.kept _).on.deserializeLoop (c := c) (Nat.le_refl _)
  | err e => exact Nat.le_refl _
  | panic => exact Nat.le_refl _

theorem deserializeLoop_splits (c : Cfg) (item : Option (Except Err Bytes)) (acc : List HttpHeader) (s : Evs) :
    Splits (HttpHeaders.deserializeLoop c item acc) s := by
  fun_induction HttpHeaders.deserializeLoop c item acc s with
  | case1 acc s => left; intro more; unfold HttpHeaders.deserializeLoop; rfl
  | case2 acc s e => left; intro more; unfold HttpHeaders.deserializeLoop; rfl
  | case3 acc s line line' item' s' hg hd hdes ih =>
    rcases gather_splits c line s with h | h
    · unfold gathered at h
      rw [hg] at h
      have h' : ∀ more, HttpHeaders.gather c line (s.add more) = (line', item', s'.add more) := fun more => by
        have := h more
        simp only [Prod.mk.injEq] at this
        exact Prod.ext this.1.1 (Prod.ext this.1.2 this.2)
      have e0 : HttpHeaders.deserializeLoop c (some (.ok line)) acc s = HttpHeaders.deserializeLoop c item' (acc ++ [hd]) s' := by
        conv => lhs; unfold HttpHeaders.deserializeLoop
        simp only [hg, hdes]
      have e : ∀ more, HttpHeaders.deserializeLoop c (some (.ok line)) acc (s.add more) =
          HttpHeaders.deserializeLoop c item' (acc ++ [hd]) (s'.add more) := fun more => by
        conv => lhs; unfold HttpHeaders.deserializeLoop
        simp only [h', hdes]
      rcases ih with ih | ih
      · left; intro more; rw [e, e0, ih]
      · right; intro more hm; rw [e]; exact ih more hm
    · right; intro more hm
      exact Nat.lt_of_le_of_lt (loop_after c line acc _) (h more hm)
  | case4 acc s line line' item' s' hg e hdes =>
    rcases gather_splits c line s with h | h
    · unfold gathered at h
      rw [hg] at h
      left; intro more
      have h' : HttpHeaders.gather c line (s.add more) = (line', item', s'.add more) := by
        have := h more
        simp only [Prod.mk.injEq] at this
        exact Prod.ext this.1.1 (Prod.ext this.1.2 this.2)
      unfold HttpHeaders.deserializeLoop
      simp only [h', hg, hdes]
    · right; intro more hm
      exact Nat.lt_of_le_of_lt (loop_after c line acc _) (h more hm)
  | case5 acc s line line' item' s' hg hdes =>
    rcases gather_splits c line s with h | h
    · unfold gathered at h
      rw [hg] at h
      left; intro more
      have h' : HttpHeaders.gather c line (s.add more) = (line', item', s'.add more) := by
        have := h more
        simp only [Prod.mk.injEq] at this
        exact Prod.ext this.1.1 (Prod.ext this.1.2 this.2)
      unfold HttpHeaders.deserializeLoop
      simp only [h', hg, hdes]
    · right; intro more hm
      exact Nat.lt_of_le_of_lt (loop_after c line acc _) (h more hm)

theorem headers_splits (c : Cfg) (s : Evs) : Splits (HttpHeaders.deserialize c) s := by
  have hd : ∀ x : Evs, HttpHeaders.deserialize c x = ((match (HttpHeaders.deserializeLoop c (crlfNext c x).1 [] (crlfNext c x).2).1 with
      | .ok hs => .ok (HttpHeaders.fromVec hs) | .err e => .err e | .panic => .panic),
      (HttpHeaders.deserializeLoop c (crlfNext c x).1 [] (crlfNext c x).2).2) := fun x => by
    unfold HttpHeaders.deserialize
    rcases crlfNext c x with ⟨item, x1⟩
    dsimp only
    rcases HttpHeaders.deserializeLoop c item [] x1 with ⟨_ | _ | _, x2⟩ <;> rfl
  unfold Splits
  simp only [hd]
  rcases crlfNext_splits c s with h | h
  · simp only [h]
    rcases deserializeLoop_splits c (crlfNext c s).1 [] (crlfNext c s).2 with h2 | h2
    · left; intro more; rw [h2]
    · right; exact h2
  · right; intro more hm
    exact Nat.lt_of_le_of_lt ((Evs.kept _).on.deserializeLoop (c := c) (Nat.le_refl _)) (h more hm)

theorem parseHead_splits {α : Type} (c : Cfg) (start : Bytes → Res α) (s : Evs) : Splits (parseHead c start) s := by
  have after : ∀ x : Evs, (trace (parseHead c start x).2).length ≤ (trace (expectNext c x).2).length := fun x => by
    unfold parseHead
    rcases expectNext c x with ⟨_ | line, x1⟩ <;> dsimp only
    · exact Nat.le_refl _
    · cases start line with
      | err e => exact Nat.le_refl _
      | panic => exact Nat.le_refl _
      | ok a =>
        have h2 := (Evs.kept (trace x1).length).on.headers (c := c) (Nat.le_refl _)
        dsimp only
        rcases hd : HttpHeaders.deserialize c x1 with ⟨hs | _ | _, x2⟩ <;> rw [hd] at h2 <;> dsimp only at h2 ⊢
        · repeat' split
          all_goals exact h2
        · exact h2
        · exact h2
  rcases expectNext_splits c s with h | h
  · unfold Splits parseHead
    simp only [h]
    rcases expectNext c s with ⟨_ | line, s1⟩
    · exact .inl fun _ => rfl
    · dsimp only
      cases start line with
      | err e => exact .inl fun _ => rfl
      | panic => exact .inl fun _ => rfl
      | ok a =>
        dsimp only
        rcases headers_splits c s1 with h2 | h2
        · left; intro more
          rw [h2]
          rcases hd : HttpHeaders.deserialize c s1 with ⟨hs | _ | _, s2⟩ <;> dsimp only
          repeat' split
          all_goals rfl
        · right; intro more hm
          have := h2 more hm
          rcases hd : HttpHeaders.deserialize c (s1.add more) with ⟨hs | _ | _, s2⟩ <;> rw [hd] at this <;> dsimp only at this ⊢
          repeat' split
          all_goals exact this
  · right; intro more hm
    exact Nat.lt_of_le_of_lt (after _) (h more hm)


theorem head_taken {α σ : Type} [LawfulReader σ] {c : Cfg} {start : Bytes → Res α} {ok : Bytes → Prop}
    (hok : ∀ l, RawLine l → (ok l ↔ ∃ a, start l = .ok a)) {p : Bytes}
    (hopen : ∀ q, q <+: p → q ≠ p → HeadOpen ok q) (hp : ¬ HeadOpen ok p) {s : σ} {more : List Ev}
    (hs : trace s = p.map .byte ++ more) : trace (parseHead c start s).2 = more := by
  have he : ¬ Retried c .parse := by rintro ⟨_, h⟩; cases h
  have hpr : ∀ q : Bytes, trace (parseHead c start (Evs.add ⟨q.map .byte⟩ [.fault .parse])).2 = [] ↔ HeadOpen ok q :=
    fun q => probe_head hok he rfl
  rw [(parseHead_sim (u := Evs.add ⟨p.map .byte⟩ more) hs).2]
  rcases parseHead_splits c start ⟨p.map .byte⟩ with h | h
  · rw [h, Evs.trace_add]
    suffices trace (parseHead c start (Evs.mk (p.map .byte))).2 = [] by rw [this]; rfl
    have hk : ReadKept fun x : Evs => trace x <:+ p.map .byte := ⟨fun x n hx => (read_suffix x n).trans hx⟩
    obtain ⟨a, ha⟩ := hk.on.parseHead (c := c) (start := start) (s := Evs.mk (p.map .byte)) (List.suffix_refl _)
    generalize hlv : trace (parseHead c start (Evs.mk (p.map .byte))).2 = lv at ha ⊢
    rcases hl : lv with _ | ⟨ev, lv'⟩
    · rfl
    exfalso
    obtain ⟨q, r, rfl, rfl, hr⟩ := List.map_eq_append_iff.1 ha.symm
    have hne : r ≠ [] := by rintro rfl; rw [hl] at hr; cases hr
    have hq := (hpr q).2 (hopen q ⟨r, rfl⟩ fun hq => hne (by simpa using hq))
    rcases parseHead_splits c start ⟨q.map .byte⟩ with g | g
    · rw [g, Evs.trace_add] at hq; simp at hq
    · have := g lv (by rw [hl]; simp)
      rw [show Evs.add ⟨q.map .byte⟩ lv = ⟨(q ++ r).map .byte⟩ by simp [Evs.add, hr], hlv] at this
      omega
  · exact absurd ((hpr p).1 (List.length_eq_zero_iff.1 (Nat.lt_one_iff.1 (h [.fault .parse] (by simp))))) hp

/-- What is not open has a shortest beginning that is not. -/
theorem shortest_closed (P : Bytes → Prop) (p : Bytes) (hp : ¬ P p) :
    ∃ q r, p = q ++ r ∧ ¬ P q ∧ ∀ x, x <+: q → x ≠ q → P x := by
  generalize hn : p.length = n
  induction n using Nat.strongRecOn generalizing p with
  | ind n ih =>
    by_cases h : ∀ x, x <+: p → x ≠ p → P x
    · exact ⟨p, [], by simp, hp, h⟩
    · simp only [Classical.not_forall] at h
      obtain ⟨x, hx, hne, hP⟩ := h
      have hlt : x.length < n := by
        rw [← hn]
        exact Nat.lt_of_le_of_ne hx.length_le fun he => hne (hx.eq_of_length he)
      obtain ⟨q, r, rfl, h2, h3⟩ := ih _ hlt x hP rfl
      obtain ⟨z, rfl⟩ := hx
      exact ⟨q, r ++ z, by simp, h2, h3⟩

section
variable {σ : Type} [LawfulReader σ]

/-- Of a stream that begins with `p`, which is not open though every shorter beginning is, the request parser takes
exactly `p`, whatever it makes of it and whatever follows. -/
theorem C166_request_taken (c : Cfg) (s : σ) (p : Bytes) (more : List Ev) (hs : trace s = p.map .byte ++ more)
    (hopen : ∀ q, q <+: p → q ≠ p → HeadOpen (fun l => ∃ m t a b, RequestLine l m t a b) q)
    (hp : ¬ HeadOpen (fun l => ∃ m t a b, RequestLine l m t a b) p) : trace (HttpRequest.deserialize c s).2 = more := by
  have := head_taken (c := c) (start := parseRequestLine) (ok := fun l => ∃ m t a b, RequestLine l m t a b) (fun l hl => by
    constructor
    · rintro ⟨m, p, a, b, hx⟩
      exact ⟨(m, p, ⟨a, b⟩), (requestLine_ok_iff ((validUtf8_iff _).2 hl.2.2) m p ⟨a, b⟩).2 hx⟩
    · rintro ⟨⟨m, t, v⟩, hx⟩
      exact ⟨m, t, v.major, v.minor, (requestLine_ok_iff ((validUtf8_iff _).2 hl.2.2) m t v).1 hx⟩) hopen hp hs
  rw [← this]
  unfold HttpRequest.deserialize
  rcases h1 : parseHead c parseRequestLine s with ⟨⟨⟨_, _, _⟩, _, _, _⟩ | e' | _, s1⟩ <;> rfl

/-- The same for responses. -/
theorem C166_response_taken (c : Cfg) (s : σ) (p : Bytes) (more : List Ev) (hs : trace s = p.map .byte ++ more)
    (hopen : ∀ q, q <+: p → q ≠ p → HeadOpen (fun l => ∃ a b code, StatusLine l a b code) q)
    (hp : ¬ HeadOpen (fun l => ∃ a b code, StatusLine l a b code) p) : trace (HttpResponse.deserialize c s).2 = more := by
  have := head_taken (c := c) (start := parseStatusLine) (ok := fun l => ∃ a b code, StatusLine l a b code) (fun l hl => by
    constructor
    · rintro ⟨a, b, code, hx⟩
      exact ⟨(⟨a, b⟩, HttpStatus.fromCode (UInt32.ofNat code)), (statusLine_ok_iff ((validUtf8_iff _).2 hl.2.2) ⟨a, b⟩ _).2 ⟨code, hx, rfl⟩⟩
    · rintro ⟨⟨v, st⟩, hx⟩
      obtain ⟨code, hc, _⟩ := (statusLine_ok_iff ((validUtf8_iff _).2 hl.2.2) v st).1 hx
      exact ⟨v.major, v.minor, code, hc⟩) hopen hp hs
  rw [← this]
  unfold HttpResponse.deserialize
  rcases h1 : parseHead c parseStatusLine s with ⟨⟨⟨_, _⟩, _, _, _⟩ | e' | _, s1⟩ <;> rfl

/-- So every stream of which some beginning is not open is decided, at the first place where it can be. -/
theorem C166_decided (c : Cfg) (s : σ) (p : Bytes) (more : List Ev) (hs : trace s = p.map .byte ++ more) :
    (¬ HeadOpen (fun l => ∃ m t a b, RequestLine l m t a b) p → ∃ q r, p = q ++ r ∧
      ¬ HeadOpen (fun l => ∃ m t a b, RequestLine l m t a b) q ∧
      (∀ x, x <+: q → x ≠ q → HeadOpen (fun l => ∃ m t a b, RequestLine l m t a b) x) ∧
      trace (HttpRequest.deserialize c s).2 = r.map .byte ++ more) ∧
    (¬ HeadOpen (fun l => ∃ a b code, StatusLine l a b code) p → ∃ q r, p = q ++ r ∧
      ¬ HeadOpen (fun l => ∃ a b code, StatusLine l a b code) q ∧
      (∀ x, x <+: q → x ≠ q → HeadOpen (fun l => ∃ a b code, StatusLine l a b code) x) ∧
      trace (HttpResponse.deserialize c s).2 = r.map .byte ++ more) := by
  constructor
  · intro hp
    obtain ⟨q, r, rfl, h2, h3⟩ := shortest_closed _ p hp
    exact ⟨q, r, rfl, h2, h3, C166_request_taken c s q _ (by rw [hs]; simp) h3 h2⟩
  · intro hp
    obtain ⟨q, r, rfl, h2, h3⟩ := shortest_closed _ p hp
    exact ⟨q, r, rfl, h2, h3, C166_response_taken c s q _ (by rw [hs]; simp) h3 h2⟩

end

/-- What follows the head, or the place where it went wrong, is left in the stream. -/
example (c : Cfg) : let _ := asciiCase
    let left := fun (p : Bytes) => (HttpRequest.deserialize c (SliceReader.mk p)).2.bytes
    (left b!"GET / HTTP/1.1\r\na: b\r\n\r\nrest" = b!"rest" ∧ left b!"GET\r\nrest\r\n" = b!"rest\r\n" ∧
      left b!"GET / HTTP/1.1\r\na:b\r\nc: d\r\nrest" = b!"rest") := by
  rcases c with ⟨_ | _⟩ <;> decide +kernel

theorem taken_key : let _ := asciiCase
    (HttpRequest.deserialize ⟨false⟩ (Evs.mk ((b!"GET\r\n").map .byte ++ [.fault .parse]))).2.evs = [.fault .parse] := by
  decide +kernel

/-- A text that is not open while all that is shorter is. -/
example : let _ := asciiCase
    (∀ q, q <+: b!"GET\r\n" → q ≠ b!"GET\r\n" → HeadOpen (fun l => ∃ m t a b, RequestLine l m t a b) q) ∧
    ¬ HeadOpen (fun l => ∃ m t a b, RequestLine l m t a b) b!"GET\r\n" := by
  intro _
  constructor
  · intro q hq hne
    left
    have hlt : q.length < 5 := Nat.lt_of_le_of_ne hq.length_le fun he => hne (hq.eq_of_length he)
    rw [List.prefix_iff_eq_take.1 hq]
    generalize q.length = n at hlt
    have : ∀ n, n < 5 → ¬ HasCrLf ((b!"GET\r\n").take n) := by unfold HasCrLf; decide
    exact this n hlt
  · intro h
    let _ := asciiCase
    have := (C166_request_partial ⟨false⟩ (Evs.mk ((b!"GET\r\n").map .byte ++ [.fault .parse])) _ .parse []
      (by rintro ⟨_, h⟩; cases h) rfl).2 h
    have key := taken_key
    dsimp only at key
    rw [show trace (HttpRequest.deserialize ⟨false⟩ (Evs.mk ((b!"GET\r\n").map .byte ++ [.fault .parse]))).2 = [.fault .parse] from key] at this
    cases this

end HttpIo
