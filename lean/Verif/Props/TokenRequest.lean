import Verif.Model.TokenRequest
import Verif.Spec.Form

/-!
# C122: the token request carries the configured credentials, exactly
-/

namespace Neutron.Props

open Neutron Auth Form

/-- Every byte is escaped to something that reads as that byte and contains no separator. -/
theorem formByte_cases (b : UInt8) :
    (formByte b = [b] ∧ b ≠ 43 ∧ b ≠ 37 ∧ b ≠ 38 ∧ b ≠ 61) ∨ (formByte b = [43] ∧ b = 32) ∨
    ∃ h l x y, formByte b = [37, h, l] ∧ digit h = some x ∧ digit l = some y ∧ UInt8.ofNat (16 * x + y) = b ∧
      h ≠ 38 ∧ h ≠ 61 ∧ l ≠ 38 ∧ l ≠ 61 := by
  by_cases hp : plain b = true
  · left
    refine ⟨by simp [formByte, hp], ?_, ?_, ?_, ?_⟩ <;> rintro rfl <;> exact absurd hp (by decide)
  · by_cases hs : b = 32
    · exact Or.inr (Or.inl ⟨by subst hs; decide, hs⟩)
    · right; right
      have key : ∀ n, n < 16 → digit (hexDigit n) = some n ∧ hexDigit n ≠ 38 ∧ hexDigit n ≠ 61 := by decide
      have hb : b.toNat < 256 := b.toNat_lt
      obtain ⟨h1, h2, h3⟩ := key (b.toNat / 16) (by omega)
      obtain ⟨l1, l2, l3⟩ := key (b.toNat % 16) (by omega)
      refine ⟨_, _, _, _, by simp [formByte, hp, hs], h1, l1, ?_, h2, h3, l2, l3⟩
      have : 16 * (b.toNat / 16) + b.toNat % 16 = b.toNat := by omega
      rw [this]
      exact UInt8.ofNat_toNat

theorem unescape_formByte (b : UInt8) (rest : Bytes) : unescape (formByte b ++ rest) = b :: unescape rest := by
  rcases formByte_cases b with ⟨h, h1, h2, _⟩ | ⟨h, rfl⟩ | ⟨hi, lo, x, y, h, h1, h2, h3, _⟩
  · rw [h, List.singleton_append, unescape]
    · exact h1
    · rintro _ _ _ rfl; exact absurd rfl h2
  · rw [h, List.singleton_append, unescape]
  · rw [h]
    simp only [List.cons_append, List.nil_append]
    rw [unescape, h1, h2]
    simp only [h3]

theorem unescape_escaped (bs : Bytes) : unescape (bs.flatMap formByte) = bs := by
  induction bs with
  | nil => rw [List.flatMap_nil, unescape]
  | cons b bs ih => rw [List.flatMap_cons, unescape_formByte, ih]

theorem escaped_free (bs : Bytes) : ∀ b ∈ bs.flatMap formByte, b ≠ 38 ∧ b ≠ 61 := by
  intro b hb
  obtain ⟨a, _, ha⟩ := List.mem_flatMap.1 hb
  rcases formByte_cases a with ⟨h, _, _, h3, h4⟩ | ⟨h, _⟩ | ⟨hi, lo, x, y, h, _, _, _, g1, g2, g3, g4⟩ <;> rw [h] at ha <;>
    simp only [List.mem_cons, List.not_mem_nil, or_false] at ha
  · subst ha; exact ⟨h3, h4⟩
  · subst ha; decide
  · rcases ha with rfl | rfl | rfl
    · decide
    · exact ⟨g1, g2⟩
    · exact ⟨g3, g4⟩

theorem splitOn_free {sep : UInt8} {p : Bytes} (h : ∀ b ∈ p, b ≠ sep) : splitOn sep p = [p] := by
  induction p with
  | nil => rfl
  | cons b p ih =>
    rw [splitOn, if_neg (h b List.mem_cons_self), ih fun x hx => h x (List.mem_cons_of_mem _ hx)]

theorem splitOn_sep {sep : UInt8} {p : Bytes} (h : ∀ b ∈ p, b ≠ sep) (rest : Bytes) :
    splitOn sep (p ++ sep :: rest) = p :: splitOn sep rest := by
  induction p with
  | nil => rw [List.nil_append, splitOn, if_pos rfl]
  | cons b p ih =>
    rw [List.cons_append, splitOn, if_neg (h b List.mem_cons_self), ih fun x hx => h x (List.mem_cons_of_mem _ hx)]

theorem cut_at {p : Bytes} (h : ∀ b ∈ p, b ≠ 61) (rest : Bytes) : cut (p ++ 61 :: rest) = (p, rest) := by
  induction p with
  | nil => rw [List.nil_append, cut, if_pos rfl]
  | cons b p ih =>
    rw [List.cons_append, cut, if_neg (h b List.mem_cons_self), ih fun x hx => h x (List.mem_cons_of_mem _ hx)]

/-- A server reads from a form body exactly the names and values put in, whatever characters they contain. -/
theorem C122_form (ps : List (String × String)) : parse (formBody ps) = ps.map fun p => (utf8 p.1, utf8 p.2) := by
  have free : ∀ (n v : String), ∀ b ∈ formString n ++ 61 :: formString v, b ≠ 38 := by
    intro n v b hb
    rcases List.mem_append.1 hb with h | h
    · exact (escaped_free _ b h).1
    · rcases List.mem_cons.1 h with rfl | h
      · decide
      · exact (escaped_free _ b h).1
  have one : ∀ (n v : String), (unescape (cut (formString n ++ 61 :: formString v)).1,
      unescape (cut (formString n ++ 61 :: formString v)).2) = (utf8 n, utf8 v) := by
    intro n v
    unfold formString
    rw [cut_at fun b hb => (escaped_free _ b hb).2]
    simp only [unescape_escaped, utf8]
  have ne : ∀ (n v : String), formString n ++ 61 :: formString v ≠ [] := by
    intro n v h
    exact absurd (List.append_eq_nil_iff.1 h).2 (List.cons_ne_nil _ _)
  induction ps with
  | nil => rfl
  | cons p ps ih =>
    obtain ⟨n, v⟩ := p
    cases ps with
    | nil =>
      unfold parse
      rw [formBody, splitOn_free (free n v), List.filter_cons_of_pos (by simp)]
      simp only [List.filter_nil, List.map_cons, List.map_nil, one]
    | cons q ps =>
      unfold parse at ih ⊢
      rw [formBody, splitOn_sep (free n v), List.filter_cons_of_pos (by simp), List.map_cons, ih, List.map_cons, one]
      · rfl
      · intro h; cases h

/-- A text of letters, digits, `*`, `-`, `.` and `_` is in the body as it is. -/
theorem C122_unchanged (s : String) (h : ∀ b ∈ utf8 s, b ∈ utf8 unreserved) : formString s = utf8 s := by
  have hx : utf8 unreserved = [65, 66, 67, 68, 69, 70, 71, 72, 73, 74, 75, 76, 77, 78, 79, 80, 81, 82, 83, 84, 85, 86, 87, 88, 89, 90, 97, 98, 99, 100, 101, 102, 103, 104, 105, 106, 107, 108, 109, 110, 111, 112, 113, 114, 115, 116, 117, 118, 119, 120, 121, 122, 48, 49, 50, 51, 52, 53, 54, 55, 56, 57, 42, 45, 46, 95] := by decide +kernel
  have key : ∀ b ∈ utf8 unreserved, formByte b = [b] := by rw [hx]; decide
  unfold formString
  change (utf8 s).flatMap formByte = utf8 s
  generalize utf8 s = l at h
  induction l with
  | nil => rfl
  | cons b l ih => rw [List.flatMap_cons, key b (h b (by simp)), ih fun x hx => h x (List.mem_cons_of_mem _ hx)]; rfl

/-- So is the name of a typical client. (The hypotheses of C122_form are met.) -/
example : formString "my-client_01.zZ" = utf8 "my-client_01.zZ" := C122_unchanged _ (by decide +kernel)

/-- The request the plugin makes: to the authority's token endpoint, and a server reads from it exactly the configured client id,
scopes, secret and audience (none if none is configured), and the client-credentials grant. -/
theorem C122_request (clientId clientSecret authority : String) (scopes : List String) (audience : Option String) :
    let r := (Credentials.new clientId clientSecret authority scopes audience).request
    r.url = authority ++ "/oauth2/v2.0/token" ∧
    parse r.body = [(utf8 "client_id", utf8 clientId), (utf8 "scope", utf8 (" ".intercalate scopes)),
      (utf8 "client_secret", utf8 clientSecret), (utf8 "grant_type", utf8 "client_credentials")] ++
      audience.toList.map fun a => (utf8 "audience", utf8 a) := by
  refine ⟨rfl, ?_⟩
  change parse (formBody (Credentials.fields _)) = _
  rw [C122_form]
  cases audience <;> rfl

theorem words_free {w : List Char} (h : ' ' ∉ w) : words w = [w] := by
  induction w with
  | nil => rfl
  | cons c w ih =>
    rw [words, if_neg fun e : c = ' ' => h (e ▸ List.mem_cons_self), ih fun hm => h (List.mem_cons_of_mem _ hm)]

theorem words_space {w : List Char} (h : ' ' ∉ w) (rest : List Char) : words (w ++ ' ' :: rest) = w :: words rest := by
  induction w with
  | nil => rw [List.nil_append, words, if_pos rfl]
  | cons c w ih =>
    rw [List.cons_append, words, if_neg fun e : c = ' ' => h (e ▸ List.mem_cons_self), ih fun hm => h (List.mem_cons_of_mem _ hm)]

/-- The scopes can be read back from the request's scope, if there are any and none contains a space. -/
theorem C122_scopes (clientId clientSecret authority : String) (scopes : List String) (audience : Option String) (hn : scopes ≠ [])
    (hs : ∀ s ∈ scopes, ' ' ∉ s.toList) :
    words (Credentials.new clientId clientSecret authority scopes audience).scope.toList = scopes.map String.toList := by
  change words (" ".intercalate scopes).toList = _
  induction scopes with
  | nil => exact absurd rfl hn
  | cons s ss ih =>
    cases ss with
    | nil => rw [String.intercalate_singleton, words_free (hs s List.mem_cons_self)]; rfl
    | cons t ts =>
      rw [String.intercalate_cons_cons, String.toList_append, String.toList_append, List.append_assoc,
        show " ".toList = [' '] from rfl, List.singleton_append, words_space (hs s List.mem_cons_self),
        ih (by simp) fun x hx => hs x (List.mem_cons_of_mem _ hx)]
      rfl

theorem utf8_inj {s t : String} (h : utf8 s = utf8 t) : s = t := by
  unfold utf8 at h
  have h2 : s.toUTF8 = t.toUTF8 := ByteArray.ext (Array.toList_inj.1 h)
  exact String.toByteArray_inj.1 h2

/-- So different credentials give different requests. -/
theorem C122_distinct {c d : Credentials} (h : c.request = d.request) : c = d := by
  have hu : c.authority ++ "/oauth2/v2.0/token" = d.authority ++ "/oauth2/v2.0/token" := congrArg Request.url h
  have hb : formBody c.fields = formBody d.fields := congrArg Request.body h
  have hp := congrArg parse hb
  rw [C122_form, C122_form] at hp
  obtain ⟨c1, c2, c3, c4, c5⟩ := c
  obtain ⟨d1, d2, d3, d4, d5⟩ := d
  have ha : c3 = d3 := by
    have := congrArg String.toList hu
    simp only [String.toList_append] at this
    exact String.toList_inj.1 (List.append_cancel_right this)
  subst ha
  cases c5 <;> cases d5 <;> simp only [Credentials.fields, Option.toList, List.map_cons, List.map_nil, List.cons_append, List.nil_append,
    List.cons.injEq, Prod.mk.injEq, List.append_nil, and_true, true_and, reduceCtorEq, and_false] at hp
  · rw [utf8_inj hp.1, utf8_inj hp.2.1, utf8_inj hp.2.2]
  · rw [utf8_inj hp.1, utf8_inj hp.2.1, utf8_inj hp.2.2.1, utf8_inj hp.2.2.2]

/-- Credentials with characters that must be escaped, two scopes and no audience. (The hypotheses of C122_request, C122_scopes and
C122_distinct are met.) -/
example : (Credentials.new "id" "a&b=c %+" "https://login" ["one", "two"] none).request.body =
      utf8 "client_id=id&scope=one+two&client_secret=a%26b%3Dc+%25%2B&grant_type=client_credentials" ∧
    (["one", "two"] : List String) ≠ [] ∧ ∀ s ∈ (["one", "two"] : List String), ' ' ∉ s.toList := by
  refine ⟨by decide +kernel, by simp, by decide⟩

end Neutron.Props
