import Verif.Lemmas.Codec
import Verif.Model.Layout
/-!
# Laws of the account formats
-/

namespace Verif

namespace Codec

variable {α : Type}

theorem Sized.cast {c : Codec α} {m n : Nat} (S : c.Sized m) (h : m = n) : c.Sized n := h ▸ S

theorem Total.cast {c : Codec α} {m n : Nat} (S : c.Total m) (h : m = n) : c.Total n := h ▸ S

theorem byte_lawful : byte.Lawful :=
  map_lawful (raw_lawful 1) (fun _ _ => ⟨rfl, rfl⟩) (fun _ _ => trivial)

theorem byte_sized : byte.Sized 1 := map_sized (raw_sized 1) (fun _ _ => rfl)

theorem str_lawful : str.Lawful := guard_lawful (vec_lawful byte_lawful) utf8

end Codec

open Codec

/-- Laws of a format given field by field. -/
macro "lawful" : tactic => `(tactic| repeat' (first
  | exact pad_lawful _ | exact uint_lawful _ | exact raw_lawful _ | exact Keys.codec_lawful _
  | exact str_lawful | exact nothing_lawful | assumption | apply pair_lawful | apply array_lawful
  | apply vec_lawful))

/-- Size of a format given field by field. -/
macro "sized" : tactic => `(tactic| repeat' (first
  | exact pad_sized _ | exact uint_sized _ | exact raw_sized _ | exact Keys.codec_sized _
  | assumption | apply pair_sized | apply array_sized))

/-- Totality of a format given field by field. -/
macro "total" : tactic => `(tactic| repeat' (first
  | exact pad_total _ | exact uint_total _ | exact raw_total _ | exact Keys.codec_total _
  | exact pad_sized _ | exact uint_sized _ | exact raw_sized _ | exact Keys.codec_sized _
  | assumption | apply pair_total | apply array_total))

theorem registryWire_lawful : registryWire.Lawful := by unfold registryWire; lawful

theorem registryWire_sized : registryWire.Sized 160 := by
  unfold registryWire
  apply Sized.cast
  · sized
  · rfl

theorem registryWire_total : registryWire.Total 160 := by
  unfold registryWire
  apply Total.cast
  · total
  · rfl

theorem registryCodec_lawful : registryCodec.Lawful :=
  map_lawful registryWire_lawful (fun _ h => ⟨rfl, h⟩) (fun _ h => h)

theorem registryCodec_sized : registryCodec.Sized 160 := map_sized registryWire_sized (fun _ h => h)

theorem registryCodec_total : registryCodec.Total 160 := map_total registryWire_total

theorem presaleWire_lawful (K : Keys) : (presaleWire K).Lawful := by
  have hl := registryCodec_lawful
  unfold presaleWire; lawful

theorem presaleWire_sized (K : Keys) : (presaleWire K).Sized 1264 := by
  have hs := registryCodec_sized
  unfold presaleWire
  apply Sized.cast
  · sized
  · rfl

theorem presaleWire_total (K : Keys) : (presaleWire K).Total 1264 := by
  have hs := registryCodec_sized
  have ht := registryCodec_total
  unfold presaleWire
  apply Total.cast
  · total
  · rfl

theorem presaleCodec_lawful (K : Keys) : (presaleCodec K).Lawful :=
  map_lawful (presaleWire_lawful K) (fun _ h => ⟨rfl, h⟩) (fun _ h => h)

theorem presaleCodec_sized (K : Keys) : (presaleCodec K).Sized 1264 :=
  map_sized (presaleWire_sized K) (fun _ h => h)

theorem presaleCodec_total (K : Keys) : (presaleCodec K).Total 1264 :=
  map_total (presaleWire_total K)

theorem escrowWire_lawful (K : Keys) : (escrowWire K).Lawful := by
  unfold escrowWire; lawful

theorem escrowWire_sized (K : Keys) : (escrowWire K).Sized 192 := by
  unfold escrowWire
  apply Sized.cast
  · sized
  · rfl

theorem escrowWire_total (K : Keys) : (escrowWire K).Total 192 := by
  unfold escrowWire
  apply Total.cast
  · total
  · rfl

theorem escrowCodec_lawful (K : Keys) : (escrowCodec K).Lawful :=
  map_lawful (escrowWire_lawful K) (fun _ h => ⟨rfl, h⟩) (fun _ h => h)

theorem escrowCodec_sized (K : Keys) : (escrowCodec K).Sized 192 :=
  map_sized (escrowWire_sized K) (fun _ h => h)

theorem escrowCodec_total (K : Keys) : (escrowCodec K).Total 192 :=
  map_total (escrowWire_total K)

theorem fixedPriceArgsWire_lawful (K : Keys) : (fixedPriceArgsWire K).Lawful := by
  unfold fixedPriceArgsWire; lawful

theorem fixedPriceArgsWire_sized (K : Keys) : (fixedPriceArgsWire K).Sized 160 := by
  unfold fixedPriceArgsWire
  apply Sized.cast
  · sized
  · rfl

theorem fixedPriceArgsWire_total (K : Keys) : (fixedPriceArgsWire K).Total 160 := by
  unfold fixedPriceArgsWire
  apply Total.cast
  · total
  · rfl

theorem fixedPriceArgsCodec_lawful (K : Keys) : (fixedPriceArgsCodec K).Lawful :=
  map_lawful (fixedPriceArgsWire_lawful K) (fun _ h => ⟨rfl, h⟩) (fun _ h => h)

theorem fixedPriceArgsCodec_sized (K : Keys) : (fixedPriceArgsCodec K).Sized 160 :=
  map_sized (fixedPriceArgsWire_sized K) (fun _ h => h)

theorem fixedPriceArgsCodec_total (K : Keys) : (fixedPriceArgsCodec K).Total 160 :=
  map_total (fixedPriceArgsWire_total K)

theorem merkleRootConfigWire_lawful (K : Keys) : (merkleRootConfigWire K).Lawful := by
  unfold merkleRootConfigWire; lawful

theorem merkleRootConfigWire_sized (K : Keys) : (merkleRootConfigWire K).Sized 144 := by
  unfold merkleRootConfigWire
  apply Sized.cast
  · sized
  · rfl

theorem merkleRootConfigWire_total (K : Keys) : (merkleRootConfigWire K).Total 144 := by
  unfold merkleRootConfigWire
  apply Total.cast
  · total
  · rfl

theorem merkleRootConfigCodec_lawful (K : Keys) : (merkleRootConfigCodec K).Lawful :=
  map_lawful (merkleRootConfigWire_lawful K) (fun _ h => ⟨rfl, h⟩) (fun _ h => h)

theorem merkleRootConfigCodec_sized (K : Keys) : (merkleRootConfigCodec K).Sized 144 :=
  map_sized (merkleRootConfigWire_sized K) (fun _ h => h)

theorem merkleRootConfigCodec_total (K : Keys) : (merkleRootConfigCodec K).Total 144 :=
  map_total (merkleRootConfigWire_total K)

theorem operatorWire_lawful (K : Keys) : (operatorWire K).Lawful := by
  unfold operatorWire; lawful

theorem operatorWire_sized (K : Keys) : (operatorWire K).Sized 128 := by
  unfold operatorWire
  apply Sized.cast
  · sized
  · rfl

theorem operatorWire_total (K : Keys) : (operatorWire K).Total 128 := by
  unfold operatorWire
  apply Total.cast
  · total
  · rfl

theorem operatorCodec_lawful (K : Keys) : (operatorCodec K).Lawful :=
  map_lawful (operatorWire_lawful K) (fun _ h => ⟨rfl, h⟩) (fun _ h => h)

theorem operatorCodec_sized (K : Keys) : (operatorCodec K).Sized 128 :=
  map_sized (operatorWire_sized K) (fun _ h => h)

theorem operatorCodec_total (K : Keys) : (operatorCodec K).Total 128 :=
  map_total (operatorWire_total K)

theorem serverMetadataWire_lawful (K : Keys) : (serverMetadataWire K).Lawful := by
  unfold serverMetadataWire; lawful

theorem serverMetadataCodec_lawful (K : Keys) : (serverMetadataCodec K).Lawful :=
  map_lawful (serverMetadataWire_lawful K) (fun _ h => ⟨rfl, h⟩) (fun _ h => h)

theorem str_length (b : Bytes) : (str.enc b).length = 4 + b.length := by
  have h1 := flatMap_length byte_sized b (fun _ _ => trivial)
  have h2 : ((uint 4).enc b.length).length = 4 := leBytes_length 4 _
  show ((uint 4).enc b.length ++ b.flatMap byte.enc).length = _
  rw [List.length_append, h1, h2]
  omega

theorem Kind.codec_lawful (K : Keys) (k : Kind) : (k.codec K).Lawful := by
  cases k
  · exact presaleCodec_lawful K
  · exact escrowCodec_lawful K
  · exact fixedPriceArgsCodec_lawful K
  · exact merkleRootConfigCodec_lawful K
  · exact operatorCodec_lawful K
  · exact serverMetadataCodec_lawful K

end Verif
