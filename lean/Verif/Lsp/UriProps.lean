import Verif.Lsp.Uri

/-!
C96: paths and URIs.
-/
namespace Verif.Lsp.Uri

theorem encode_percent : encodeChar kept (ch '%') = [ch '%'] := by decide +kernel

/-- One character is decoded to itself, whatever follows. -/
theorem decode_char (c : Byte) (h : c ≠ ch '%') (r : List Byte) : decode (encodeChar kept c ++ r) = (decode r).map (c :: ·) := by
  unfold encodeChar
  by_cases hk : unreserved c || kept.contains c
  · rw [if_pos hk, List.singleton_append, decode.eq_def]
    simp only [h, if_false]
  · rw [if_neg hk]
    have h1 : hexValue (hexDigit (c.val / 16)) = some (c.val / 16) := by revert c; decide +kernel
    have h2 : hexValue (hexDigit (c.val % 16)) = some (c.val % 16) := by revert c; decide +kernel
    have h3 : Fin.ofNat 256 (16 * (c.val / 16) + c.val % 16) = c := by
      rw [Nat.div_add_mod]; apply Fin.ext; simp
    simp only [List.cons_append, List.nil_append, decode, h1, h2, if_true, h3]

theorem decode_encode (p : List Byte) (h : ch '%' ∉ p) : decode (encodePath p) = some (p.map toSlash) := by
  unfold encodePath
  induction p with
  | nil => rfl
  | cons c r ih =>
    have hc : toSlash c ≠ ch '%' := by
      have : c ≠ ch '%' := fun e => h (e ▸ List.mem_cons_self)
      unfold toSlash
      split
      · decide
      · exact this
    rw [List.flatMap_cons, decode_char _ hc, ih fun hm => h (List.mem_cons_of_mem _ hm)]
    rfl

/-- No delimiter of URIs is written but `/`. -/
theorem encode_plain (p : List Byte) : ∀ c ∈ encodePath p, isEnd c = false ∧ c ≠ ch ':' := by
  intro c hc
  obtain ⟨d, -, hd⟩ := List.mem_flatMap.1 hc
  have : ∀ e : Byte, (encodeChar kept e).all (fun c => !isEnd c && c != ch ':') = true := by decide +kernel
  have := List.all_eq_true.1 (this (toSlash d)) c hd
  simpa using this

theorem takeWhile_all {α} (q : α → Bool) (l : List α) (h : ∀ x ∈ l, q x = true) : l.takeWhile q = l := by
  rw [← List.filter_eq_self] at h
  induction l with
  | nil => rfl
  | cons a r ih =>
    have ha : q a = true := by
      by_cases ha : q a = true
      · exact ha
      · rw [List.filter_cons_of_neg ha] at h
        have := congrArg List.length h
        have := List.length_filter_le q r
        simp at *; omega
    rw [List.filter_cons_of_pos ha] at h
    rw [List.takeWhile_cons_of_pos ha, ih (List.cons.inj h).2]

/-- The parts of a URI with a `file` scheme. -/
theorem split_file (r : List Byte) : split (str "file:" ++ r) = some (splitRest (str "file") r) := by
  have h1 : str "file:" = [ch 'f', ch 'i', ch 'l', ch 'e', ch ':'] := rfl
  have h2 : str "file" = [ch 'f', ch 'i', ch 'l', ch 'e'] := rfl
  rw [h1, h2]
  unfold split
  have hf : (ch 'f' == ch ':') = false := by decide
  have hi : (ch 'i' == ch ':') = false := by decide
  have hl : (ch 'l' == ch ':') = false := by decide
  have he : (ch 'e' == ch ':') = false := by decide
  rw [if_pos (by simp)]
  simp only [List.cons_append, List.nil_append, List.takeWhile_cons, List.dropWhile_cons, hf, hi, hl, he, Bool.not_false, if_true, beq_self_eq_true, Bool.not_true,
    Bool.false_eq_true, if_false, List.drop_succ_cons, List.drop_zero]

/-- An empty authority. -/
theorem splitRest_local (s p : List Byte) (h : ∀ c ∈ p, isEnd c = false) : splitRest s (str "//" ++ ch '/' :: p) = ⟨s, some [], ch '/' :: p⟩ := by
  have h1 : str "//" = [ch '/', ch '/'] := rfl
  have h2 : ((ch '/') == (ch '/')) = true := by decide
  have h3 : isEnd (ch '/') = false := by decide
  rw [h1]
  simp only [List.cons_append, List.nil_append, splitRest, h2, Bool.and_self, if_true, List.takeWhile_cons, List.dropWhile_cons, Bool.true_or, Bool.not_true, Bool.false_eq_true,
    if_false, h3, Bool.not_false]
  rw [takeWhile_all _ p fun c hc => by simp [h c hc]]

theorem untitled_prefix {p : List Byte} (h : ∀ r, p ≠ ch 'u' :: r) : (str "untitled").isPrefixOf p = false := by
  have h1 : str "untitled" = ch 'u' :: str "ntitled" := rfl
  cases p with
  | nil => rfl
  | cons c r =>
    have : c ≠ ch 'u' := fun e => h r (e ▸ rfl)
    rw [h1, List.isPrefixOf]
    simp [Ne.symm this]

theorem schemes : str "file" ≠ str "untitled" := by decide

/-- C96 on Linux and macOS, for absolute paths without `%` and `\`: the URI leads back to the (normalised) path. Missing for
the full property: paths with these characters (`C96_witness_percent`, `C96_witness_backslash`). -/
theorem C96_back_partial (norm : List Byte → List Byte) (p : List Byte) (h1 : ch '%' ∉ p) (h2 : ch '\\' ∉ p) (habs : ∃ r, p = ch '/' :: r) :
    uriToPath false norm (pathToUri false p) = some (norm p) := by
  obtain ⟨r, rfl⟩ := habs
  have hu : (str "untitled").isPrefixOf (ch '/' :: r) = false := untitled_prefix fun _ h => absurd (List.cons.inj h).1 (by decide)
  have hp : ∀ q : List Byte, encodePath (ch '/' :: q) = ch '/' :: encodePath q := fun q => by
    have : encodeChar kept (toSlash (ch '/')) = [ch '/'] := by decide +kernel
    show encodeChar kept (toSlash (ch '/')) ++ encodePath q = _
    rw [this]; rfl
  have hs : str "file://" = str "file:" ++ str "//" := rfl
  have hmap : (ch '/' :: r).map toSlash = ch '/' :: r := by
    refine (List.map_congr_left fun c hc => ?_).trans (List.map_id _)
    have : c ≠ ch '\\' := fun e => h2 (e ▸ hc)
    simp [toSlash, this]
  have hd := decode_encode _ h1
  rw [hmap, hp] at hd
  unfold pathToUri
  rw [hu]
  simp only [Bool.false_eq_true, if_false]
  rw [hp, hs, List.append_assoc]
  unfold uriToPath
  rw [split_file, splitRest_local _ _ fun c hc => (encode_plain r c hc).1]
  simp only [schemes, if_false, ne_eq, not_true_eq_false, reduceCtorEq, uriToPath.localPart, Option.getD_some, Bool.false_eq_true, hd, Option.map_some]

theorem encode_inj (p q : List Byte) (hp : ch '%' ∉ p) (hp' : ch '\\' ∉ p) (hq : ch '%' ∉ q) (hq' : ch '\\' ∉ q) (h : encodePath p = encodePath q) : p = q := by
  have hm : ∀ p : List Byte, ch '\\' ∉ p → p.map toSlash = p := fun p h => by
    refine (List.map_congr_left fun c hc => ?_).trans (List.map_id _)
    have : c ≠ ch '\\' := fun e => h (e ▸ hc)
    simp [toSlash, this]
  have h1 := decode_encode p hp
  rw [h, decode_encode q hq, hm p hp', hm q hq'] at h1
  exact (Option.some.inj h1).symm

/-- C96 on Linux and macOS: two absolute paths without `%` and `\` never share a URI. Missing as above
(`C96_witness_same`). -/
theorem C96_distinct_partial (p q : List Byte) (hp : ch '%' ∉ p) (hp' : ch '\\' ∉ p) (hq : ch '%' ∉ q) (hq' : ch '\\' ∉ q)
    (hpa : ∃ r, p = ch '/' :: r) (hqa : ∃ r, q = ch '/' :: r) (h : pathToUri false p = pathToUri false q) : p = q := by
  have hu : ∀ p : List Byte, (∃ r, p = ch '/' :: r) → (str "untitled").isPrefixOf p = false := by
    rintro _ ⟨r, rfl⟩
    exact untitled_prefix fun _ h => absurd (List.cons.inj h).1 (by decide)
  unfold pathToUri at h
  rw [hu p hpa, hu q hqa] at h
  exact encode_inj p q hp hp' hq hq' (List.append_cancel_left h)

/-- C96 on Windows, a path with a drive letter: the path comes back with `/` for `\` and a small drive letter, then normalised
(`std::filesystem` takes `/` and `\` as the same and drive letters do not distinguish case). -/
theorem C96_windows_drive_partial (norm : List Byte → List Byte) (c : Byte) (r : List Byte) (hc : 65 ≤ c.val ∧ c.val ≤ 90 ∨ 97 ≤ c.val ∧ c.val ≤ 122)
    (h1 : ch '%' ∉ r) : uriToPath true norm (pathToUri true (c :: ch ':' :: r)) = some (norm (lower c :: ch ':' :: r.map toSlash)) := by
  have hu : (str "untitled").isPrefixOf (c :: ch ':' :: r) = false := by
    have h1 : str "untitled" = ch 'u' :: ch 'n' :: str "titled" := rfl
    have h2 : (ch 'n' == ch ':') = false := by decide
    rw [h1]
    simp [List.isPrefixOf, h2]
  have hplain : ∀ c : Byte, (65 ≤ c.val ∧ c.val ≤ 90 ∨ 97 ≤ c.val ∧ c.val ≤ 122) → encodeChar kept (toSlash c) = [c] ∧ c ≠ ch '/' ∧ c ≠ ch '%' := by decide +kernel
  have hlow : ∀ c : Byte, (65 ≤ c.val ∧ c.val ≤ 90 ∨ 97 ≤ c.val ∧ c.val ≤ 122) → (65 ≤ (lower c).val ∧ (lower c).val ≤ 90 ∨ 97 ≤ (lower c).val ∧ (lower c).val ≤ 122) ∧
      toSlash (lower c) = lower c := by decide +kernel
  have hcolon : toSlash (ch ':') = ch ':' := by decide
  have henc : ∀ c : Byte, (65 ≤ c.val ∧ c.val ≤ 90 ∨ 97 ≤ c.val ∧ c.val ≤ 122) → ∀ q, encodePath (c :: q) = c :: encodePath q := fun c hc q => by
    show encodeChar kept (toSlash c) ++ encodePath q = _
    rw [(hplain c hc).1]; rfl
  unfold pathToUri
  rw [hu, henc c hc]
  have hslash : (str "//").isPrefixOf (c :: encodePath (ch ':' :: r)) = false := by
    have : str "//" = [ch '/', ch '/'] := rfl
    have h3 : (ch '/' == c) = false := by simpa using Ne.symm (hplain c hc).2.1
    rw [this]; simp [List.isPrefixOf, h3]
  rw [hslash]
  have hs : str "file:///" ++ (c :: encodePath (ch ':' :: r)) = str "file:" ++ (str "//" ++ ch '/' :: (c :: encodePath (ch ':' :: r))) := rfl
  simp only [Bool.false_eq_true, if_false, if_true]
  rw [hs]
  unfold uriToPath
  have hnoend : ∀ x ∈ c :: encodePath (ch ':' :: r), isEnd x = false := by
    rw [← henc c hc]; exact fun x hx => (encode_plain _ x hx).1
  rw [split_file, splitRest_local _ _ hnoend]
  have hd := decode_encode (lower c :: ch ':' :: r) (by
    simp only [List.mem_cons, not_or]
    exact ⟨Ne.symm (hplain _ (hlow c hc).1).2.2, by decide, h1⟩)
  rw [henc _ (hlow c hc).1, List.map_cons, List.map_cons, (hlow c hc).2, hcolon] at hd
  simp only [schemes, if_false, ne_eq, not_true_eq_false, reduceCtorEq, uriToPath.localPart, Option.getD_some, if_true, List.drop_succ_cons, List.drop_zero, lowerFirst, hd,
    Option.map_some]

/-- C96 on Windows, a file of a server, `\\server\share…`. -/
theorem C96_windows_share_partial (norm : List Byte → List Byte) (server share : List Byte) (h1 : ch '%' ∉ server) (h2 : ch '%' ∉ share)
    (hs : server ≠ []) (hs1 : ch '/' ∉ server) (hs2 : ch '\\' ∉ server) :
    uriToPath true norm (pathToUri true (str "\\\\" ++ server ++ ch '\\' :: share)) = some (norm (str "//" ++ server ++ ch '/' :: share.map toSlash)) := by
  have hbs : str "\\\\" = [ch '\\', ch '\\'] := rfl
  have hss : str "//" = [ch '/', ch '/'] := rfl
  have hu : (str "untitled").isPrefixOf (str "\\\\" ++ server ++ ch '\\' :: share) = false := untitled_prefix fun r h => by
    rw [hbs] at h
    exact absurd (List.cons.inj h).1 (by decide)
  have hap : ∀ a b : List Byte, encodePath (a ++ b) = encodePath a ++ encodePath b := fun a b => List.flatMap_append
  have hone : encodeChar kept (toSlash (ch '\\')) = [ch '/'] := by decide +kernel
  have hcons : ∀ q, encodePath (ch '\\' :: q) = ch '/' :: encodePath q := fun q => by
    show encodeChar kept (toSlash (ch '\\')) ++ encodePath q = _
    rw [hone]; rfl
  have henc : encodePath (str "\\\\" ++ server ++ ch '\\' :: share) = str "//" ++ (encodePath server ++ ch '/' :: encodePath share) := by
    rw [hap, hap, hbs, hcons, hcons, hcons, hss]; simp [encodePath]
  have hserver : ∀ c ∈ encodePath server, (c == ch '/' || isEnd c) = false := by
    intro c hc
    have he := (encode_plain server c hc).1
    obtain ⟨d, hd, hcd⟩ := List.mem_flatMap.1 hc
    have : ∀ d : Byte, d ≠ ch '/' → d ≠ ch '\\' → (encodeChar kept (toSlash d)).all (fun c => c != ch '/') = true := by decide +kernel
    have := List.all_eq_true.1 (this d (fun e => hs1 (e ▸ hd)) (fun e => hs2 (e ▸ hd))) c hcd
    simp only [bne_iff_ne, ne_eq] at this
    simp [this, he]
  have hne : encodePath server ≠ [] := by
    cases server with
    | nil => exact absurd rfl hs
    | cons c r =>
      have : ∀ e : Byte, encodeChar kept e ≠ [] := by decide +kernel
      intro h
      have h' : encodeChar kept (toSlash c) ++ encodePath r = [] := h
      exact this _ (List.append_eq_nil_iff.1 h').1
  have hshare : ∀ c ∈ ch '/' :: encodePath share, (!isEnd c) = true := by
    intro c hc
    rcases List.mem_cons.1 hc with rfl | hc
    · decide
    · simp [(encode_plain share c hc).1]
  have hd := decode_encode (str "\\\\" ++ server ++ ch '\\' :: share) (by
    rw [hbs]
    simp only [List.cons_append, List.nil_append, List.mem_cons, List.mem_append, not_or]
    exact ⟨by decide, by decide, h1, by decide, h2⟩)
  have hmap : (str "\\\\" ++ server ++ ch '\\' :: share).map toSlash = str "//" ++ server ++ ch '/' :: share.map toSlash := by
    have ht : toSlash (ch '\\') = ch '/' := by decide
    have hm : server.map toSlash = server := by
      refine (List.map_congr_left fun c hc => ?_).trans (List.map_id _)
      have : c ≠ ch '\\' := fun e => hs2 (e ▸ hc)
      simp [toSlash, this]
    rw [hbs, hss]
    simp [ht, hm]
  rw [henc, hmap] at hd
  unfold pathToUri
  rw [hu, henc]
  have hpre : (str "//").isPrefixOf (str "//" ++ (encodePath server ++ ch '/' :: encodePath share)) = true := by
    rw [hss]; simp [List.isPrefixOf]
  rw [hpre]
  simp only [Bool.false_eq_true, if_false, if_true]
  unfold uriToPath
  have hrest : splitRest (str "file") (str "//" ++ (encodePath server ++ ch '/' :: encodePath share)) = ⟨str "file", some (encodePath server), ch '/' :: encodePath share⟩ := by
    have hq : ∀ c ∈ encodePath server, (fun c => !(c == ch '/' || isEnd c)) c = true := fun c hc => by
      show (!(c == ch '/' || isEnd c)) = true
      rw [hserver c hc]; rfl
    have hslash : (!((ch '/' : Byte) == ch '/' || isEnd (ch '/'))) = false := by decide
    have hsl : ((ch '/' : Byte) == ch '/') = true := by decide
    rw [hss]
    simp only [List.cons_append, List.nil_append, splitRest, hsl, Bool.and_self, if_true]
    rw [List.takeWhile_append_of_pos hq, List.dropWhile_append_of_pos hq, List.takeWhile_cons_of_neg (by rw [hslash]; decide), List.dropWhile_cons_of_neg (by rw [hslash]; decide),
      takeWhile_all _ _ hshare, List.append_nil]
  rw [split_file, hrest]
  simp only [schemes, if_false, ne_eq, not_true_eq_false, reduceCtorEq, uriToPath.localPart, Option.getD_some, if_true, hne, not_false_eq_true, List.append_assoc, hd, Option.map_some]

/-- C96. A URI of a file not saved yet is its own path. -/
theorem C96_untitled (win : Bool) (norm : List Byte → List Byte) (r : List Byte) :
    uriToPath win norm (str "untitled:" ++ r) = some (str "untitled:" ++ r) ∧ pathToUri win (str "untitled:" ++ r) = str "untitled:" ++ r := by
  have hp : (str "untitled").isPrefixOf (str "untitled:" ++ r) = true := by
    rw [List.isPrefixOf_iff_prefix]
    exact ⟨ch ':' :: r, rfl⟩
  refine ⟨?_, by unfold pathToUri; rw [hp]; rfl⟩
  have hs : ∃ p, split (str "untitled:" ++ r) = some p ∧ p.scheme = str "untitled" := by
    have h1 : str "untitled:" = str "untitled" ++ [ch ':'] := rfl
    have hq : ∀ c ∈ str "untitled", (fun c : Byte => !(c == ch ':')) c = true := by decide +kernel
    refine ⟨_, by unfold split; rw [if_pos (by rw [h1]; simp)], ?_⟩
    rw [h1, List.append_assoc, List.takeWhile_append_of_pos hq]
    have : splitRest (str "untitled" ++ List.takeWhile (fun c => !(c == ch ':')) ([ch ':'] ++ r)) (List.drop 1 (List.dropWhile (fun c => !(c == ch ':')) (str "untitled" ++ ([ch ':'] ++ r)))) =
      splitRest (str "untitled") (List.drop 1 (List.dropWhile (fun c => !(c == ch ':')) (str "untitled" ++ ([ch ':'] ++ r)))) := by
      have hcol : ¬ ((fun c : Byte => !(c == ch ':')) (ch ':') = true) := by decide
      rw [List.singleton_append, List.takeWhile_cons_of_neg (p := fun c : Byte => !(c == ch ':')) hcol, List.append_nil]
    rw [this]
    unfold splitRest
    split
    · split <;> rfl
    · rfl
  obtain ⟨p, h1, h2⟩ := hs
  unfold uriToPath
  simp only [h1, h2, if_true]

/-- C96. A URI of another scheme is not the path of a file: all of them get the empty path. -/
theorem C96_foreign (win : Bool) (norm : List Byte → List Byte) (scheme r : List Byte) (h1 : ch ':' ∉ scheme) (h2 : scheme ≠ str "untitled")
    (h3 : scheme ≠ str "file") : uriToPath win norm (scheme ++ ch ':' :: r) = some [] := by
  have hq : ∀ c ∈ scheme, (fun c : Byte => !(c == ch ':')) c = true := by
    intro c hc
    simp only [Bool.not_eq_true', beq_eq_false_iff_ne, ne_eq]
    rintro rfl
    exact h1 hc
  have hs : ∀ x, (splitRest scheme x).scheme = scheme := by
    intro x
    unfold splitRest
    split
    · split <;> rfl
    · rfl
  have hcol : ¬ ((fun c : Byte => !(c == ch ':')) (ch ':') = true) := by decide
  have ht : (scheme ++ ch ':' :: r).takeWhile (fun c => !(c == ch ':')) = scheme := by
    rw [List.takeWhile_append_of_pos hq, List.takeWhile_cons_of_neg (p := fun c : Byte => !(c == ch ':')) hcol, List.append_nil]
  unfold uriToPath split
  rw [if_pos (by simp)]
  simp only
  rw [ht, hs, if_neg h2, if_pos h3]

example : uriToPath false id (str "git:/a/b.hlasm?x") = some [] := C96_foreign false id (str "git") (str "/a/b.hlasm?x") (by decide +kernel) (by decide +kernel) (by decide +kernel)

/-- C96 does not hold with per cent signs: `/a%41` comes back as `/aA`, `/100%` does not come back at all. -/
theorem C96_witness_percent : uriToPath false id (pathToUri false (str "/a%41")) = some (str "/aA") ∧
    uriToPath false id (pathToUri false (str "/100%")) = none := by decide +kernel

/-- C96: the files `/a b` and `/a%20b` are reported under one URI. -/
theorem C96_witness_same : pathToUri false (str "/a b") = pathToUri false (str "/a%20b") ∧ str "/a b" ≠ str "/a%20b" := by decide +kernel

/-- C96: a backslash is an ordinary character of file names on Linux; it comes back as a slash. -/
theorem C96_witness_backslash : uriToPath false id (pathToUri false (str "/a\\b")) = some (str "/a/b") := by decide +kernel

example : pathToUri false (str "/home/me/a file@1.hlasm") = str "file:///home/me/a%20file%401.hlasm" ∧
    uriToPath false id (str "file:///home/me/a%20file%401.hlasm") = some (str "/home/me/a file@1.hlasm") ∧
    pathToUri true (str "C:\\dir\\f.asm") = str "file:///C%3A/dir/f.asm" ∧ uriToPath true id (str "file:///C%3A/dir/f.asm") = some (str "c:/dir/f.asm") ∧
    pathToUri true (str "\\\\srv\\x\\f") = str "file://srv/x/f" ∧ uriToPath true id (str "file://srv/x/f") = some (str "//srv/x/f") := by decide +kernel

end Verif.Lsp.Uri
