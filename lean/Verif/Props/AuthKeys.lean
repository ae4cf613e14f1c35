import Verif.Model.AuthKeys
import Verif.Spec.Chars

/-!
# Properties of keys of system users, of answers for PAM and of the time of authentication (C105–C108)
-/

namespace Verif.Props
open Verif.AuthKeys
open Verif.Spec (wsChar)

theorem ws_auth : wsChar = isSpace := rfl

/-! ## C105: keys of system users -/

/-- The text `d` is the second field of a line of the file (or empty, if there is no second field), whose first field `ty` starts the line; fields end with white space, a
zero byte or the end of the file. -/
def KeyInFile (s ty d : Text) : Prop :=
  ∃ a c b, s = a ++ (ty ++ c :: (d ++ b)) ∧ (a = [] ∨ ∃ a', a = a' ++ ['\n']) ∧ (∀ x ∈ ty, wsChar x = false) ∧ wsChar c = true ∧
    (∀ x ∈ d, wsChar x = false) ∧ ty.head? ≠ some '#' ∧
    (d = [] ∨ (c ≠ '\n' ∧ (b = [] ∨ ∃ x b', b = x :: b' ∧ (wsChar x = true ∨ x = '\x00'))))

theorem tw_split (p : Char → Bool) (l : Text) : l.takeWhile p ++ l.drop (l.takeWhile p).length = l := by
  induction l with
  | nil => rfl
  | cons a t ih => simp only [List.takeWhile_cons]; split <;> simp_all

theorem tw_rest (p : Char → Bool) (l : Text) : l.drop (l.takeWhile p).length = [] ∨ ∃ x r, l.drop (l.takeWhile p).length = x :: r ∧ p x = false := by
  induction l with
  | nil => exact .inl rfl
  | cons a t ih => simp only [List.takeWhile_cons]; split <;> simp_all

theorem tw_all (p : Char → Bool) (l : Text) : ∀ x ∈ l.takeWhile p, p x = true := by
  induction l with
  | nil => simp
  | cons a t ih =>
    simp only [List.takeWhile_cons]
    split
    · intro x hx
      rcases List.mem_cons.mp hx with rfl | hx
      · assumption
      · exact ih x hx
    · simp

theorem tw_stop {p : Char → Bool} {l r : Text} {c : Char} (hl : ∀ x ∈ l, p x = true) (hc : p c = false) : (l ++ c :: r).takeWhile p = l := by
  induction l with
  | nil => simp [hc]
  | cons a t ih => rw [List.cons_append, List.takeWhile_cons, if_pos (hl a (by simp)), ih (fun x hx => hl x (by simp [hx]))]

theorem tw_whole {p : Char → Bool} {l : Text} (hl : ∀ x ∈ l, p x = true) : l.takeWhile p = l := by
  induction l with
  | nil => rfl
  | cons a t ih => rw [List.takeWhile_cons, if_pos (hl a (by simp)), ih (fun x hx => hl x (by simp [hx]))]

theorem parseLine_key {kt : Text → Bool} {line d : Text} (h : parseLine kt line = .key d) :
    ∃ ty c b, line = ty ++ c :: (d ++ b) ∧ kt ty = true ∧ (∀ x ∈ ty, isSpace x = false) ∧ isSpace c = true ∧ (∀ x ∈ d, isSpace x = false) ∧
      (b = [] ∨ ∃ x b', b = x :: b' ∧ (isSpace x = true ∨ x = '\x00')) ∧ ty.head? ≠ some '#' := by
  unfold parseLine at h
  simp only at h
  have hz := tw_split (fun c => decide (c ≠ '\x00')) line
  have hzr := tw_rest (fun c => decide (c ≠ '\x00')) line
  generalize line.takeWhile (fun c => decide (c ≠ '\x00')) = s at h hz hzr
  generalize line.drop s.length = z at hz hzr
  split at h
  · cases h
  · rename_i hh
    have ht := tw_split (fun c => !isSpace c) s
    have htr := tw_rest (fun c => !isSpace c) s
    have hta := tw_all (fun c => !isSpace c) s
    generalize s.takeWhile (fun c => !isSpace c) = ty at h ht htr hta
    generalize e : s.drop ty.length = w at h ht htr
    cases w with
    | nil => cases h
    | cons c r =>
      simp only at h
      split at h
      · rename_i hk
        simp only [Line.key.injEq] at h
        have hd := tw_split (fun c => !isSpace c) r
        have hdr := tw_rest (fun c => !isSpace c) r
        have hda := tw_all (fun c => !isSpace c) r
        rw [h] at hd hdr hda
        generalize r.drop d.length = b at hd hdr
        refine ⟨ty, c, b ++ z, ?_, hk, ?_, ?_, ?_, ?_, ?_⟩
        · rw [← hz, ← ht, ← hd]; simp
        · intro x hx; simpa using hta x hx
        · rcases htr with h | ⟨x, r', h, hx⟩
          · cases h
          · cases h; simpa using hx
        · intro x hx; simpa using hda x hx
        · rcases hdr with rfl | ⟨x, r', rfl, hx⟩
          · rcases hzr with rfl | ⟨x, r', rfl, hx⟩
            · exact .inl rfl
            · exact .inr ⟨x, r', rfl, .inr (by simpa using hx)⟩
          · exact .inr ⟨x, r' ++ z, by simp, .inl (by simpa using hx)⟩
        · intro hty
          apply hh
          left
          cases ty with
          | nil => simp at hty
          | cons y ys => rw [← ht]; simpa using hty
      · cases h

theorem getline_split (s : Text) : (getline s).1 ++ (getline s).2 = s := by
  unfold getline
  have := tw_split (fun c => decide (c ≠ '\n')) s
  generalize s.takeWhile (fun c => decide (c ≠ '\n')) = l at this ⊢
  simp only [List.append_assoc]
  rw [show List.take 1 (List.drop l.length s) ++ List.drop (l.length + 1) s = List.drop l.length s by
    rw [← List.drop_drop]; exact List.take_append_drop 1 _]
  exact this

theorem getline_end (s : Text) (h : (getline s).2 ≠ []) : ∃ a, (getline s).1 = a ++ ['\n'] := by
  unfold getline at h ⊢
  have hr := tw_rest (fun c => decide (c ≠ '\n')) s
  generalize s.takeWhile (fun c => decide (c ≠ '\n')) = l at h hr ⊢
  rcases hr with e | ⟨x, r, e, hx⟩
  · simp only [← List.drop_drop, e, List.drop_nil, ne_eq, not_true_eq_false] at h
  · refine ⟨l, ?_⟩
    simp only [e]
    simp at hx
    simp [hx]

theorem getline_form (s : Text) : ∃ l t, (getline s).1 = l ++ t ∧ '\n' ∉ l ∧ (t = [] ∨ t = ['\n']) := by
  unfold getline
  have hr := tw_rest (fun c => decide (c ≠ '\n')) s
  have ha := tw_all (fun c => decide (c ≠ '\n')) s
  generalize s.takeWhile (fun c => decide (c ≠ '\n')) = l at hr ha ⊢
  refine ⟨l, (s.drop l.length).take 1, rfl, fun h => by simpa using ha _ h, ?_⟩
  rcases hr with e | ⟨x, r, e, hx⟩
  · exact .inl (by rw [e]; rfl)
  · right
    simp at hx
    rw [e, hx]; rfl

theorem readLines_mem (kt : Text → Bool) (whole : Text) (s : Text) (keys : List Text) :
    ∀ pre, whole = pre ++ s → (pre = [] ∨ (∃ a', pre = a' ++ ['\n']) ∨ s = []) → (∀ d ∈ keys, ∃ ty, kt ty = true ∧ KeyInFile whole ty d) →
    ∀ ds, readLines kt s keys = some ds → ∀ d ∈ ds, ∃ ty, kt ty = true ∧ KeyInFile whole ty d := by
  induction hn : s.length using Nat.strongRecOn generalizing s keys with
  | ind n ih =>
    intro pre hw hpre hk ds h
    rw [readLines] at h
    split at h
    · cases h; exact hk
    · rename_i hs
      have hw' : whole = (pre ++ (getline s).1) ++ (getline s).2 := by rw [List.append_assoc, getline_split]; exact hw
      have hpre' : pre = [] ∨ ∃ a', pre = a' ++ ['\n'] := hpre.elim .inl (·.elim .inr (absurd · hs))
      have hend : pre ++ (getline s).1 = [] ∨ (∃ a', pre ++ (getline s).1 = a' ++ ['\n']) ∨ (getline s).2 = [] := by
        by_cases he : (getline s).2 = []
        · exact .inr (.inr he)
        · obtain ⟨a, e⟩ := getline_end s he
          exact .inr (.inl ⟨pre ++ a, by rw [e]; simp⟩)
      have hlt : (getline s).2.length < n := by have := getline_lt hs; omega
      split at h
      · exact ih _ hlt _ _ rfl _ hw' hend hk ds h
      · cases h
      · rename_i d e
        refine ih _ hlt _ _ rfl _ hw' hend ?_ ds h
        intro x hx
        unfold push at hx
        split at hx
        · simp at hx
        · rcases List.mem_append.mp hx with hx | hx
          · exact hk x hx
          · rw [List.mem_singleton] at hx
            subst hx
            obtain ⟨ty, c, b, e1, e2, e3, e4, e5, e6, e7⟩ := parseLine_key e
            refine ⟨ty, e2, pre, c, b ++ (getline s).2, ?_, hpre', e3, e4, e5, e7, ?_⟩
            · rw [hw', e1]; simp
            · by_cases hx0 : x = []
              · exact .inl hx0
              refine .inr ⟨?_, ?_⟩
              · rintro rfl
                obtain ⟨l, t, el, hl, ht⟩ := getline_form s
                rw [e1] at el
                rcases ht with rfl | rfl
                · simp only [List.append_nil] at el
                  exact hl (by rw [← el]; simp)
                · have hne : x ++ b ≠ [] := by simp [hx0]
                  obtain ⟨q, z, eq⟩ := List.eq_nil_or_concat (x ++ b) |>.resolve_left hne
                  rw [eq, List.concat_eq_append, ← List.cons_append, ← List.append_assoc] at el
                  have := (List.append_inj' el rfl).1
                  exact hl (by rw [← this]; simp)
              · rcases e6 with rfl | ⟨y, b', rfl, hy⟩
                · by_cases he : (getline s).2 = []
                  · exact .inl (by simpa using he)
                  · exfalso
                    obtain ⟨a, ea⟩ := getline_end s he
                    rw [e1, List.append_nil] at ea
                    obtain ⟨q, z, eq⟩ := List.eq_nil_or_concat x |>.resolve_left hx0
                    rw [eq, List.concat_eq_append, ← List.cons_append, ← List.append_assoc] at ea
                    have := (List.append_inj' ea rfl).2
                    simp only [List.cons.injEq, and_true] at this
                    have := e5 z (by rw [eq]; simp)
                    subst_vars
                    exact absurd this (by decide)
                · exact .inr ⟨y, b' ++ (getline s).2, by simp, hy⟩

theorem compareKey_mem {lib : Libs} {key : Nat} {ds : List Text} (h : compareKey lib key ds = some true) : ∃ d ∈ ds, createKey lib d = some (some key) := by
  induction ds with
  | nil => simp [compareKey] at h
  | cons d t ih =>
    simp only [compareKey] at h
    split at h
    · cases h
    · obtain ⟨x, hx, e⟩ := ih h; exact ⟨x, by simp [hx], e⟩
    · rename_i k e
      split at h
      · rename_i hk; exact ⟨d, by simp, by rw [e, hk]⟩
      · obtain ⟨x, hx, e⟩ := ih h; exact ⟨x, by simp [hx], e⟩

/-- **C105** A key is accepted for a system user only if it stands in their file: as second field of a line whose first field is the name of a supported type. -/
theorem authkeys_sound (kt : Text → Bool) (lib : Libs) (content : Option Text) (key : Nat) (h : systemKey kt lib content key = some true) :
    ∃ s ty d, content = some s ∧ kt ty = true ∧ KeyInFile s ty d ∧ createKey lib d = some (some key) := by
  unfold systemKey at h
  cases content with
  | none => simp [readFile] at h
  | some s =>
    simp only [readFile] at h
    cases hr : readLines kt s [] with
    | none => rw [hr] at h; cases h
    | some ds =>
      rw [hr] at h
      obtain ⟨d, hd, e⟩ := compareKey_mem h
      obtain ⟨ty, h1, h2⟩ := readLines_mem kt s s [] [] rfl (.inl rfl) (by simp) ds hr d hd
      exact ⟨s, ty, d, rfl, h1, h2, e⟩

/-- Lines of a file in its simple form: comments, empty lines, and `type data rest`. -/
inductive Entry
  | comment (t : Text)
  | blank
  | key (ty : Text) (sep : Char) (data rest : Text)

/-- The text of a line. -/
def Entry.render : Entry → Text
  | .comment t => '#' :: t
  | .blank => []
  | .key ty c d rest => ty ++ c :: (d ++ rest)

/-- The parts of a line are what they should be; a comment or the rest may contain anything but the end of the line. -/
def Entry.Ok : Entry → Prop
  | .comment t => '\n' ∉ t
  | .blank => True
  | .key ty c d rest => ty ≠ [] ∧ (∀ x ∈ ty, wsChar x = false ∧ x ≠ '\x00') ∧ ty.head? ≠ some '#' ∧ (c = ' ' ∨ c = '\t') ∧ (∀ x ∈ d, wsChar x = false ∧ x ≠ '\x00') ∧
      '\n' ∉ rest ∧ (rest = [] ∨ ∃ r, rest = ' ' :: r ∨ rest = '\t' :: r)

/-- The data of the keys with a supported type. -/
def Entry.data (kt : Text → Bool) : Entry → List Text
  | .key ty _ d _ => if kt ty then [d] else []
  | _ => []

theorem getline_line {l r : Text} (h : '\n' ∉ l) : getline (l ++ '\n' :: r) = (l ++ ['\n'], r) := by
  unfold getline
  rw [tw_stop (fun x hx => by simp; rintro rfl; exact h hx) (by simp)]
  simp only [List.drop_append_of_le_length (Nat.le_refl _), List.drop_length, List.nil_append, Prod.mk.injEq]
  refine ⟨by simp, ?_⟩
  rw [← List.drop_drop, List.drop_append_of_le_length (Nat.le_refl _)]
  simp

theorem notNl {x : Char} (h : isSpace x = false) : x ≠ '\n' := by rintro rfl; revert h; decide

theorem parse_entry (kt : Text → Bool) (e : Entry) (h : e.Ok) :
    '\n' ∉ e.render ∧ parseLine kt (e.render ++ ['\n']) = match e.data kt with | [] => .skip | d :: _ => .key d := by
  cases e with
  | comment t => have h : '\n' ∉ t := h; exact ⟨by simpa [Entry.render] using h, by simp [parseLine, Entry.render, Entry.data]⟩
  | blank => exact ⟨by simp [Entry.render], by simp [parseLine, Entry.render, Entry.data]⟩
  | key ty c d rest =>
    obtain ⟨h0, h1, h2, h3, h4, h5, h6⟩ := h
    rw [ws_auth] at h1 h4
    have hc : isSpace c = true ∧ c ≠ '\n' ∧ c ≠ '\x00' := by rcases h3 with rfl | rfl <;> decide
    refine ⟨?_, ?_⟩
    · simp only [Entry.render, List.mem_append, List.mem_cons, not_or]
      exact ⟨fun hm => notNl (h1 _ hm).1 rfl, Ne.symm hc.2.1, fun hm => notNl (h4 _ hm).1 rfl, h5⟩
    · -- the C string: up to a zero byte, which can only be in the rest
      obtain ⟨w, hw, hw'⟩ : ∃ w, (Entry.render (.key ty c d rest) ++ ['\n']).takeWhile (fun c => decide (c ≠ '\x00')) = ty ++ c :: (d ++ w) ∧
          (w = [] ∨ ∃ x y, w = x :: y ∧ isSpace x = true) := by
        have hpre : ∀ x ∈ ty ++ c :: d, decide (x ≠ '\x00') = true := by
          intro x hx
          simp only [List.mem_append, List.mem_cons] at hx
          rcases hx with hx | rfl | hx
          · simpa using (h1 x hx).2
          · simpa using hc.2.2
          · simpa using (h4 x hx).2
        have happ : ∀ (l r : Text), (∀ x ∈ l, decide (x ≠ '\x00') = true) →
            (l ++ r).takeWhile (fun c => decide (c ≠ '\x00')) = l ++ r.takeWhile (fun c => decide (c ≠ '\x00')) := by
          intro l r hl
          induction l with
          | nil => rfl
          | cons a t ih => rw [List.cons_append, List.takeWhile_cons, if_pos (hl a (by simp)), ih (fun x hx => hl x (by simp [hx]))]; rfl
        refine ⟨(rest ++ ['\n']).takeWhile (fun c => decide (c ≠ '\x00')), ?_, ?_⟩
        · have := happ (ty ++ c :: d) (rest ++ ['\n']) hpre
          simpa [Entry.render] using this
        · rcases h6 with rfl | ⟨r, rfl | rfl⟩
          · exact .inr ⟨'\n', [], by simp, by decide⟩
          · exact .inr ⟨' ', _, by rw [List.cons_append, List.takeWhile_cons]; simp; rfl, by decide⟩
          · exact .inr ⟨'\t', _, by rw [List.cons_append, List.takeWhile_cons]; simp; rfl, by decide⟩
      unfold parseLine
      simp only [hw]
      have hhd : ¬ ((ty ++ c :: (d ++ w)).head? = some '#' ∨ (ty ++ c :: (d ++ w)).head? = some '\n') := by
        cases ty with
        | nil => exact absurd rfl h0
        | cons y ys =>
          simp only [List.cons_append, List.head?_cons, Option.some.injEq, not_or] at h2 ⊢
          exact ⟨fun h => h2 (by rw [h]), notNl (h1 y (by simp)).1⟩
      have hd : (d ++ w).takeWhile (fun c => !isSpace c) = d := by
        rcases hw' with rfl | ⟨x, y, rfl, hx⟩
        · rw [List.append_nil, tw_whole (fun x hx => by simpa using (h4 x hx).1)]
        · exact tw_stop (fun x hx => by simpa using (h4 x hx).1) (by simpa using hx)
      have hty : (ty ++ c :: (d ++ w)).takeWhile (fun c => !isSpace c) = ty := tw_stop (fun x hx => by simpa using (h1 x hx).1) (by simpa using hc.1)
      rw [if_neg hhd, hty, List.drop_append_of_le_length (Nat.le_refl _)]
      simp only [List.drop_length, List.nil_append, hd, Entry.data]
      cases kt ty <;> simp

theorem readLines_entries (kt : Text → Bool) (es : List Entry) (h : ∀ e ∈ es, e.Ok) (keys : List Text)
    (hn : keys.length + (es.flatMap (Entry.data kt)).length < 65536) :
    readLines kt (es.flatMap (fun e => e.render ++ ['\n'])) keys = some (keys ++ es.flatMap (Entry.data kt)) := by
  induction es generalizing keys with
  | nil => rw [readLines]; simp
  | cons e t ih =>
    obtain ⟨h1, h2⟩ := parse_entry kt e (h e (by simp))
    have hl : getline ((e :: t).flatMap (fun e => e.render ++ ['\n'])) = (e.render ++ ['\n'], t.flatMap (fun e => e.render ++ ['\n'])) := by
      have := getline_line (r := t.flatMap (fun e => e.render ++ ['\n'])) h1
      simpa [List.flatMap_cons] using this
    rw [readLines, dif_neg (by simp [List.flatMap_cons]), hl]
    simp only [h2]
    have hlen : e.data kt = [] ∨ ∃ d, e.data kt = [d] := by
      cases e <;> simp only [Entry.data, true_or]
      split <;> simp
    rw [List.flatMap_cons, List.length_append] at hn
    rcases hlen with e0 | ⟨d, e0⟩
    · rw [e0] at hn ⊢
      simp only [List.length_nil, Nat.zero_add] at hn
      rw [ih (fun e he => h e (by simp [he])) keys hn]
      simp [List.flatMap_cons, e0]
    · rw [e0] at hn ⊢
      simp only [List.length_singleton] at hn
      have hp : push keys d = keys ++ [d] := by unfold push; rw [if_neg (by omega)]
      simp only [hp]
      rw [ih (fun e he => h e (by simp [he])) _ (by rw [List.length_append, List.length_singleton]; omega)]
      simp [List.flatMap_cons, e0]

/-- **C105** All keys of a file are read, in their order. Proved for files in the simple form (no options, one separator before the data, an end of line everywhere) with fewer
than 65536 keys. -/
theorem authkeys_complete_partial (kt : Text → Bool) (es : List Entry) (h : ∀ e ∈ es, e.Ok) (hn : (es.flatMap (Entry.data kt)).length < 65536) :
    readFile kt (some (es.flatMap (fun e => e.render ++ ['\n']))) = some (es.flatMap (Entry.data kt)) := by
  have := readLines_entries kt es h [] (by simpa using hn)
  simpa [readFile] using this

/-- Libraries for examples: the data `AAAA…`, a type and a number. -/
def sampleType (t : Text) : Bool := t = "ssh-rsa".toList

/-- **C105** The statement is false for other files: a key with options is not read, neither is one after two spaces, and one word at the end of the file makes all keys unknown. -/
theorem authkeys_complete_false :
    readFile sampleType (some "no-pty ssh-rsa AAAAB3\n".toList) = some [] ∧
    readFile sampleType (some "ssh-rsa  AAAAB3 me\n".toList) = some [[]] ∧
    readFile sampleType (some "ssh-rsa AAAAB3 me\nend".toList) = none := by decide +kernel

example : readFile sampleType (some "# keys\n\nssh-rsa AAAAB3 me\r\nssh-dss AAAAC4 me\nssh-rsa AAAAB5".toList) = some ["AAAAB3".toList, "AAAAB5".toList] := by decide +kernel

/-! ## C106: types of public keys -/

/-- The encoding of a length. -/
def be32 (n : Nat) : List Nat := [n / 16777216 % 256, n / 65536 % 256, n / 256 % 256, n % 256]

/-- The names of the key formats (RFC 4253, 6.6; RFC 5656, 3.1; RFC 8709, 4). -/
def keyFormat : KType → String
  | .rsa => "ssh-rsa"
  | .p256 => "ecdsa-sha2-nistp256"
  | .p384 => "ecdsa-sha2-nistp384"
  | .p521 => "ecdsa-sha2-nistp521"
  | .ed25519 => "ssh-ed25519"

/-- A text of ASCII characters as bytes. -/
def ascii (s : String) : List Nat := s.toList.map Char.toNat

theorem keyFormat_eq (t : KType) : keyFormat t = t.name := by cases t <;> rfl

/-- **C106** The type of every key in the format of SSH is recognised, whatever follows it. -/
theorem keytype_right (t : KType) (rest : List Nat) : keyType (be32 (keyFormat t).length ++ (ascii (keyFormat t) ++ rest)) = some (some t) := by
  rw [keyFormat_eq, show ascii = bytesOf from rfl]
  have hl : t.name.length = match t with | .rsa => 7 | .ed25519 => 11 | _ => 19 := by cases t <;> decide +kernel
  cases t <;> simp only [hl] <;> simp [keyType, be32, bytesOf, KType.name, strncmpEq, matchType, ktypes]

/-- **C106** A stored key with a well-formed type is made by the library's import for just that type; DSA keys and data that are not base64 are refused. -/
theorem create_key_right (lib : Libs) (data : Text) :
    (∀ t rest, lib.decode data = some (be32 (keyFormat t).length ++ (ascii (keyFormat t) ++ rest)) → createKey lib data = some (lib.imp data t)) ∧
    (∀ rest, lib.decode data = some (be32 7 ++ (ascii "ssh-dss" ++ rest)) → createKey lib data = some none) ∧
    (lib.decode data = none → createKey lib data = some none) := by
  refine ⟨fun t rest h => ?_, fun rest h => ?_, fun h => ?_⟩
  · simp only [createKey, h, keytype_right]
  · have : keyType (be32 7 ++ (ascii "ssh-dss" ++ rest)) = some none := by
      rw [show ascii = bytesOf from rfl]
      simp [keyType, be32, bytesOf, strncmpEq]
    simp only [createKey, h, this]
  · simp only [createKey, h]

example : createKey ⟨fun _ => some (be32 11 ++ (ascii "ssh-ed25519" ++ [0, 0])), fun _ t => if t = .ed25519 then some 5 else some 6⟩ [] = some (some 5) := by decide +kernel

theorem strncmpEq_safe (buf lit : List Nat) (n : Nat) (h : lit.length < buf.length) : strncmpEq buf lit n ≠ none := by
  induction buf generalizing lit n with
  | nil => simp at h
  | cons b bs ih =>
    cases n with
    | zero => simp [strncmpEq]
    | succ n =>
      simp only [strncmpEq]
      split
      · simp
      · rename_i hb
        split
        · simp
        · rename_i h0
          cases lit with
          | nil => simp at hb; exact absurd hb h0
          | cons l ls => exact ih ls n (by simpa using h)

/-- **C106** Detecting the type of a key does not read behind its decoded data. Proved for data of at least 24 bytes; real keys are longer. -/
theorem keytype_safe_partial (bin : List Nat) (h : 24 ≤ bin.length) : keyType bin ≠ none := by
  match bin, h with
  | a :: b :: c :: d :: buf, h =>
    simp only [List.length_cons] at h
    have hs : ∀ (lit : List Nat) (n : Nat), lit.length ≤ 19 → strncmpEq buf lit n ≠ none := fun lit n hl => strncmpEq_safe buf lit n (by omega)
    have hm : ∀ (n : Nat) (ts : List KType), matchType buf n ts ≠ none := by
      intro n ts
      induction ts with
      | nil => simp [matchType]
      | cons t ts ih =>
        simp only [matchType]
        have := hs (bytesOf t.name) n (by cases t <;> decide +kernel)
        split
        · contradiction
        · simp
        · exact ih
    simp only [keyType]
    have := hs (bytesOf "ssh-dss") (((a * 256 + b) * 256 + c) * 256 + d) (by decide +kernel)
    split
    · contradiction
    · simp
    · exact hm _ _
  | [], h => simp at h
  | [_], h => simp at h
  | [_, _], h => simp at h
  | [_, _, _], h => simp at h

/-- **C106** The statement is false for shorter data, which a line `ssh-rsa AAAA` of the file of a user has: three bytes, of which four are read. -/
theorem keytype_safe_false : ∃ (kt : Text → Bool) (lib : Libs) (file : Text), kt "ssh-rsa".toList = true ∧ lib.decode "AAAA".toList = some [0, 0, 0] ∧
    systemKey kt lib (some file) 7 = none :=
  ⟨sampleType, ⟨fun t => if t = "AAAA".toList then some [0, 0, 0] else none, fun _ _ => none⟩, "ssh-rsa AAAA\n".toList, by decide +kernel, by decide +kernel, by decide +kernel⟩

/-- A cut name: the comparison runs behind the data. -/
example : keyType (be32 7 ++ ascii "ssh-") = none := by decide +kernel
example : keyType (be32 11 ++ ascii "ssh-ed25519" ++ [0, 0, 0, 32]) = some (some .ed25519) := by decide +kernel
example : keyType (be32 7 ++ ascii "ssh-dss" ++ [0, 0, 0, 32]) = some none := by decide +kernel

/-! ## C107: answers for PAM -/

/-- Whether a message is a question. -/
def isPrompt : Style × Text → Bool
  | (.echoOff, _) | (.echoOn, _) => true
  | _ => false

theorem promptsOf_eq (msgs : List (Style × Text)) : promptsOf msgs = (msgs.filter isPrompt).map (fun m => (m.2, m.1 == .echoOn)) := by
  induction msgs with
  | nil => rfl
  | cons m t ih =>
    obtain ⟨s, x⟩ := m
    cases s <;> simp [promptsOf, ih, isPrompt] <;> rfl

/-- **C107** The client is asked exactly the questions of the module, in their order, each with its own echo flag. -/
theorem pam_questions (msgs : List (Style × Text)) (send : Bool) (answers : Option (List Text)) (q : List (Text × Bool)) (h : (pamConv msgs send answers).sent = some q) :
    q = (msgs.filter isPrompt).map (fun m => (m.2, m.1 == .echoOn)) := by
  rw [← promptsOf_eq]
  unfold pamConv at h
  simp only at h
  repeat' split at h
  all_goals first | (cases h; done) | (cases h; rfl)

/-- **C107** and success is reported to the module only if there was nothing to ask or the client gave as many answers as there were questions. -/
theorem pam_success (msgs : List (Style × Text)) (send : Bool) (answers : Option (List Text)) (h : (pamConv msgs send answers).ret = .success) :
    msgs.filter isPrompt = [] ∨ ∃ as, answers = some as ∧ as.length = (msgs.filter isPrompt).length ∧
      pamConv msgs send answers = ⟨.success, some ((msgs.filter isPrompt).map (fun m => (m.2, m.1 == .echoOn))), some (as.map some)⟩ := by
  rw [← promptsOf_eq]
  have hc : ∀ l : List (Style × Text), l.any (fun m => decide (m.1 = .other)) = false → l.any (fun m => decide (m.1 = .error)) = false →
      (l.filter isPrompt).length + l.countP (fun m => decide (m.1 = .info)) = l.length := by
    intro l h1 h2
    induction l with
    | nil => rfl
    | cons m t ih =>
      obtain ⟨s, x⟩ := m
      simp only [List.any_cons, Bool.or_eq_false_iff] at h1 h2
      have := ih h1.2 h2.2
      cases s <;> simp [isPrompt, List.filter_cons] at h1 h2 ⊢ <;> omega
  unfold pamConv at h ⊢
  split at h
  · cases h
  · rename_i g1
    split at h
    · cases h
    · rename_i g2
      split at h
      · cases h
      · rename_i g3
        rw [if_neg g1, if_neg g2, if_neg g3]
        have := hc msgs (Bool.eq_false_iff.mpr g2) (Bool.eq_false_iff.mpr g3)
        simp only at h ⊢
        split at h
        · rename_i g4
          left
          rw [← List.length_eq_zero_iff]
          omega
        · rename_i g4
          rw [if_neg g4]
          split at h
          · cases h
          · rename_i g5
            rw [if_neg g5]
            split at h
            · cases h
            · rename_i as
              split at h
              · cases h
              · rename_i g6
                right
                refine ⟨as, rfl, ?_, ?_⟩
                · omega
                · simp only [if_neg g6]

/-- **C107** The module finds for each of its messages an entry in the array of responses, for a question the answer to it. Proved if all messages are questions. -/
theorem pam_answers_partial (msgs : List (Style × Text)) (send : Bool) (answers : Option (List Text)) (hp : ∀ m ∈ msgs, isPrompt m = true)
    (h : (pamConv msgs send answers).ret = .success) :
    ∃ as, answers = some as ∧ (pamConv msgs send answers).resp = some (as.map some) ∧ as.length = msgs.length ∧
      (pamConv msgs send answers).sent = some (msgs.map (fun m => (m.2, m.1 == .echoOn))) := by
  have hf : msgs.filter isPrompt = msgs := List.filter_eq_self.mpr hp
  have hne : msgs ≠ [] := by
    rintro rfl
    simp [pamConv] at h
  rcases pam_success msgs send answers h with h' | ⟨as, h1, h2, h3⟩
  · rw [hf] at h'; exact absurd h' hne
  · refine ⟨as, h1, by rw [h3], by rw [h2, hf], ?_⟩
    rw [h3, hf]

/-- **C107** The statement is false if the module also sends information: its second message is a question, but the array has one entry only; with two questions, the first
one gets the answer to the second. -/
theorem pam_answers_false :
    (∃ msgs as, msgs[1]?.map isPrompt = some true ∧ (pamConv msgs true (some as)).ret = .success ∧ ∃ r, (pamConv msgs true (some as)).resp = some r ∧ r[1]? = none) ∧
    (∃ msgs as r, (msgs.filter isPrompt).head? = msgs[1]? ∧ pamConv msgs true (some as) = ⟨.success, some [(['P', 'I', 'N'], false), (['C', 'o', 'd', 'e'], true)], some r⟩ ∧
      as[0]? = some ['1', '2'] ∧ r[1]? = some (some ['9', '9'])) :=
  ⟨⟨[(.info, ['H', 'i']), (.echoOff, ['P', 'I', 'N'])], [['1', '2']], by decide, by decide, _, rfl, by decide⟩,
   ⟨[(.info, ['H', 'i']), (.echoOff, ['P', 'I', 'N']), (.echoOn, ['C', 'o', 'd', 'e'])], [['1', '2'], ['9', '9']], [some ['1', '2'], some ['9', '9']], by decide, by decide, by decide, by decide⟩⟩

example : pamConv [(.echoOff, ['P', 'I', 'N'])] true (some [['1', '2']]) = ⟨.success, some [(['P', 'I', 'N'], false)], some [some ['1', '2']]⟩ := by decide

/-- **C107** The conversation succeeds with up to 31 questions if the client answers all of them; no messages and more than 32 are refused, nothing is sent then. -/
theorem pam_count (msgs : List (Style × Text)) (as : List Text) (hp : ∀ m ∈ msgs, isPrompt m = true) :
    (msgs ≠ [] → msgs.length < 32 → as.length = msgs.length → (pamConv msgs true (some as)).ret = .success) ∧
    (msgs = [] ∨ 32 < msgs.length → ∀ send answers, pamConv msgs send answers = ⟨.convErr, none, none⟩) := by
  constructor
  · intro hne hl has
    have h1 : ¬ (msgs.length = 0 ∨ msgs.length ≥ 32) := by
      cases msgs with
      | nil => exact absurd rfl hne
      | cons a t => simp only [List.length_cons] at hl ⊢; omega
    have h2 : msgs.any (fun m => m.1 = .other) = false := by
      rw [List.any_eq_false]; intro m hm; have := hp m hm
      obtain ⟨st, x⟩ := m; cases st <;> simp_all [isPrompt]
    have h3 : msgs.any (fun m => m.1 = .error) = false := by
      rw [List.any_eq_false]; intro m hm; have := hp m hm
      obtain ⟨st, x⟩ := m; cases st <;> simp_all [isPrompt]
    have h4 : msgs.countP (fun m => m.1 = .info) = 0 := by
      rw [List.countP_eq_zero]; intro m hm; have := hp m hm
      obtain ⟨st, x⟩ := m; cases st <;> simp_all [isPrompt]
    unfold pamConv
    simp only [h2, h3, h4]
    rw [if_neg h1]
    have h5 : ¬ msgs.length = 0 := fun h => h1 (.inl h)
    simp [h5, has]
  · intro h send answers
    unfold pamConv
    rw [if_pos]
    rcases h with rfl | h
    · simp
    · omega

/-- **C107** A module may send 32 messages at once (`PAM_MAX_NUM_MSG`); they are refused. -/
theorem pam_count_false : ¬ ∀ (msgs : List (Style × Text)) (as : List Text), (∀ m ∈ msgs, isPrompt m = true) → msgs ≠ [] → msgs.length ≤ 32 →
    as.length = msgs.length → (pamConv msgs true (some as)).ret = .success := by
  intro h
  have := h (List.replicate 32 (.echoOff, ['x'])) (List.replicate 32 ['y']) (by decide) (by decide) (by decide) (by decide)
  exact absurd this (by decide)

/-! ## C108: the time of authentication -/

theorem waitLoop_time (limit : Nat) (d : Option Nat) (now : Nat) : (waitLoop limit d now).2 ≤ max (now + 100) limit := by
  induction hk : limit - now using Nat.strongRecOn generalizing now with
  | ind k ih =>
    rw [waitLoop]
    split
    · simp only; omega
    · split
      · rename_i h
        have := ih _ (by omega) (now + 100) rfl
        omega
      · simp only; omega

theorem authLoop_time (limit : Nat) (hl : limit ≠ 0) (b : Nat) (steps : List Step) (hb : ∀ r ok, Step.kbd r ok ∈ steps → (dialogue limit r).2 ≤ b) (now : Nat) (hn : now ≤ limit)
    (a : Auth) (t : Nat) (h : authLoop limit steps now = some (a, t)) : t ≤ limit + b + 100 := by
  induction steps generalizing now with
  | nil => simp [authLoop] at h
  | cons s ss ih =>
    have ih' := ih (fun r ok hm => hb r ok (by simp [hm]))
    have hc : ∀ t', t' ≤ limit + b → (if limit ≠ 0 ∧ ¬ t' + 100 + 1000 ≤ limit then some (Auth.timeout, t' + 100) else authLoop limit ss (t' + 100)) = some (a, t) →
        t ≤ limit + b + 100 := by
      intro t' ht h
      split at h
      · cases h; omega
      · rename_i hx
        exact ih' (t' + 100) (by omega) h
    cases s with
    | gone => simp only [authLoop, Option.some.injEq, Prod.mk.injEq] at h; omega
    | idle => simp only [authLoop] at h; exact hc now (by omega) h
    | quick ok =>
      simp only [authLoop] at h
      split at h
      · simp only [Option.some.injEq, Prod.mk.injEq] at h; omega
      · exact hc now (by omega) h
    | kbd r ok =>
      have := hb r ok (by simp)
      simp only [authLoop] at h
      split at h
      · simp only [Option.some.injEq, Prod.mk.injEq] at h; omega
      · exact hc (now + (dialogue limit r).2) (by omega) h

/-- **C108** Authentication ends within its timeout (100 µs are one sleep). Proved without interactive authentication; with dialogues of one question at most within twice the timeout. -/
theorem auth_time_partial (limit : Nat) (hl : 1000 ≤ limit) (steps : List Step) (a : Auth) (t : Nat) (h : authLoop limit steps 0 = some (a, t)) :
    ((∀ r ok, Step.kbd r ok ∉ steps) → t ≤ limit + 100) ∧ ((∀ r ok, Step.kbd r ok ∈ steps → r.length ≤ 1) → t ≤ 2 * limit + 100) := by
  constructor
  · intro hk
    have := authLoop_time limit (by omega) 0 steps (fun r ok hm => absurd hm (hk r ok)) 0 (by omega) a t h
    omega
  · intro hk
    have := authLoop_time limit (by omega) limit steps ?_ 0 (by omega) a t h
    · omega
    · intro r ok hm
      have hr := hk r ok hm
      match r, hr with
      | [], _ => simp [dialogue]
      | [d], _ =>
        have := waitLoop_time limit d 0
        simp only [dialogue]
        split
        · rename_i e; rw [e] at this; simp only at this ⊢; omega
        · rename_i e; rw [e] at this; simp only at this ⊢; omega

theorem waitLoop_got (limit k i : Nat) (h : 100 * k + 1000 ≤ limit) (hi : i ≤ k) : waitLoop limit (some (100 * k)) (100 * i) = (true, 100 * k) := by
  induction hk : k - i using Nat.strongRecOn generalizing i with
  | ind n ih =>
    rw [waitLoop]
    by_cases he : i = k
    · subst he; simp [arrived]
    · rw [if_neg (by simp [arrived]; omega), dif_pos (by omega)]
      exact ih _ (by omega) (i + 1) (by omega) rfl

/-- **C108** The statement is false: a client that answers the questions of a PAM module slowly, each within the timeout, is authenticated after any time. -/
theorem auth_time_false (limit : Nat) (h : 1100 ≤ limit) (bound : Nat) : ∃ steps t, authLoop limit steps 0 = some (.ok, t) ∧ t > bound := by
  have hd : ∀ n, dialogue limit (List.replicate n (some 100)) = (true, 100 * n) := by
    intro n
    induction n with
    | zero => rfl
    | succ n ih =>
      have := waitLoop_got limit 1 0 (by omega) (by omega)
      simp only [Nat.mul_one, Nat.mul_zero] at this
      simp only [List.replicate_succ, dialogue, this, ih, Prod.mk.injEq, true_and]
      omega
  refine ⟨[.kbd (List.replicate (bound + 1) (some 100)) true], 100 * (bound + 1), ?_, by omega⟩
  simp [authLoop, hd]

/-- **C108** A timeout of 0 means no limit, but then an interactive client has to answer at once: any answer that takes time is too late. -/
theorem auth_no_limit_false (d : Option Nat) (hd : d ≠ some 0) (ds : List (Option Nat)) : (dialogue 0 (d :: ds)).1 = false := by
  have ha : arrived d 0 = false := by
    cases d with
    | none => rfl
    | some x => simp [arrived]; rintro rfl; exact hd rfl
  have : waitLoop 0 d 0 = (false, 100) := by
    rw [waitLoop]
    simp [ha]
  simp [dialogue, this]

/-- **C108** With a timeout, an answer is waited for until one millisecond before its end. -/
theorem auth_waits (limit k : Nat) (h : 100 * k + 1000 ≤ limit) : dialogue limit [some (100 * k)] = (true, 100 * k) := by
  have := waitLoop_got limit k 0 h (by omega)
  simp only [Nat.mul_zero] at this
  simp [dialogue, this]

theorem waitLoop_arrived (limit : Nat) (d : Option Nat) (now : Nat) (h : (waitLoop limit d now).1 = true) : ∃ x, d = some x ∧ x ≤ (waitLoop limit d now).2 := by
  induction hk : limit - now using Nat.strongRecOn generalizing now with
  | ind k ih =>
    rw [waitLoop] at h ⊢
    split at h
    · rename_i ha
      rw [if_pos ha]
      cases d with
      | none => simp [arrived] at ha
      | some x => exact ⟨x, rfl, by simpa [arrived] using ha⟩
    · rename_i ha
      rw [if_neg ha]
      split at h
      · rename_i hb
        rw [dif_pos hb]
        exact ih _ (by omega) (now + 100) h rfl
      · cases h

theorem dialogue_answered (limit : Nat) (r : List (Option Nat)) (h : (dialogue limit r).1 = true) :
    ∃ xs : List Nat, r = xs.map some ∧ (∀ x ∈ xs, x ≤ max 100 limit) ∧ xs.sum ≤ (dialogue limit r).2 := by
  induction r with
  | nil => exact ⟨[], rfl, by simp, by simp⟩
  | cons d ds ih =>
    have hw := waitLoop_arrived limit d 0
    have ht := waitLoop_time limit d 0
    simp only [dialogue] at h ⊢
    cases hx : waitLoop limit d 0 with
    | mk b t =>
      rw [hx] at h hw ht
      cases b with
      | false => simp at h
      | true =>
        obtain ⟨x, hx1, hx2⟩ := hw rfl
        obtain ⟨xs, e, h1, h2⟩ := ih h
        refine ⟨x :: xs, by rw [hx1, e]; rfl, ?_, by simp only [List.sum_cons] at hx2 ⊢; omega⟩
        intro y hy
        rcases List.mem_cons.mp hy with rfl | hy
        · simp only at hx2 ht; omega
        · exact h1 y hy

/-- **C108** A client is authenticated only by a request that completes the authentication; if it was interactive, the client answered every round, each within the time, and it took at least the time of all answers. -/
theorem auth_ok_means (limit : Nat) (steps : List Step) (now t : Nat) (h : authLoop limit steps now = some (.ok, t)) :
    ∃ s ∈ steps, s = .quick true ∨ ∃ xs : List Nat, s = .kbd (xs.map some) true ∧ (∀ x ∈ xs, x ≤ max 100 limit) ∧ now + xs.sum ≤ t := by
  induction steps generalizing now with
  | nil => simp [authLoop] at h
  | cons s ss ih =>
    have hc : ∀ t', now ≤ t' → (if limit ≠ 0 ∧ ¬ t' + 100 + 1000 ≤ limit then some (Auth.timeout, t' + 100) else authLoop limit ss (t' + 100)) = some (.ok, t) →
        ∃ s' ∈ s :: ss, s' = .quick true ∨ ∃ xs : List Nat, s' = .kbd (xs.map some) true ∧ (∀ x ∈ xs, x ≤ max 100 limit) ∧ now + xs.sum ≤ t := by
      intro t' hn h
      split at h
      · cases h
      · obtain ⟨s', hs, h'⟩ := ih _ h
        refine ⟨s', by simp [hs], ?_⟩
        rcases h' with h' | ⟨xs, e, g1, g2⟩
        · exact .inl h'
        · exact .inr ⟨xs, e, g1, by omega⟩
    cases s with
    | gone => simp [authLoop] at h
    | idle => simp only [authLoop] at h; exact hc now (Nat.le_refl _) h
    | quick ok =>
      simp only [authLoop] at h
      split at h
      · rename_i hok; subst hok; exact ⟨_, by simp, .inl rfl⟩
      · exact hc now (Nat.le_refl _) h
    | kbd r ok =>
      simp only [authLoop] at h
      split at h
      · rename_i hok
        obtain ⟨h1, rfl⟩ := hok
        obtain ⟨xs, rfl, g1, g2⟩ := dialogue_answered limit r h1
        simp only [Option.some.injEq, Prod.mk.injEq] at h
        exact ⟨_, by simp, .inr ⟨xs, rfl, g1, by omega⟩⟩
      · exact hc _ (Nat.le_add_right _ _) h

/-- A client that gives no answer is not authenticated, a later password does it. -/
example : authLoop 1300 [.kbd [none] true, .quick true] 0 = some (.timeout, 500) := by decide +kernel
example : authLoop 9000 [.kbd [some 100, some 200] true] 0 = some (.ok, 300) := by decide +kernel

/-- A password after some time, and nothing until the end. -/
example : authLoop 30000000 [.idle, .quick false, .idle, .quick true] 0 = some (.ok, 300) := by decide
example : authLoop 1200 [.idle, .idle, .idle] 0 = some (.timeout, 300) := by decide

end Verif.Props
