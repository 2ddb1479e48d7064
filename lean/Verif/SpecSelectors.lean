import Verif.Model.Selectors
/-!
# Specification: discriminators as bytes

Computed outside Lean from the names in `/repo`.
-/

namespace Verif.Spec

/-- Discriminators of the account types. -/
def accountBytes : Kind → Bytes
  | .presale => [38, 215, 222, 14, 115, 220, 52, 168]
  | .escrow => [31, 213, 123, 187, 186, 22, 218, 155]
  | .fixedArgs => [75, 139, 198, 148, 132, 54, 191, 83]
  | .merkleRoot => [103, 2, 222, 217, 73, 50, 187, 39]
  | .operator => [219, 31, 188, 145, 69, 139, 204, 117]
  | .metadata => [130, 242, 96, 20, 147, 138, 75, 246]

/-- Selectors of the instructions. -/
def selectorBytes : IxName → Bytes
  | .initFixedArgs => [224, 80, 127, 193, 204, 143, 243, 194]
  | .closeFixedArgs => [125, 65, 70, 247, 99, 200, 42, 225]
  | .initPresale => [9, 174, 12, 126, 150, 119, 68, 100]
  | .createMerkle => [55, 243, 253, 240, 78, 186, 232, 166]
  | .closeMerkle => [157, 174, 38, 193, 204, 253, 3, 12]
  | .createEscrow => [241, 26, 9, 26, 248, 201, 151, 0]
  | .createEscrowCreator => [131, 130, 26, 39, 200, 38, 18, 173]
  | .createEscrowMerkle => [62, 200, 54, 145, 59, 239, 91, 5]
  | .createOperator => [145, 40, 238, 75, 181, 252, 59, 11]
  | .revokeOperator => [185, 25, 87, 77, 88, 8, 30, 175]
  | .deposit => [242, 35, 198, 137, 82, 225, 242, 182]
  | .withdraw => [183, 18, 70, 156, 148, 109, 161, 34]
  | .claim => [62, 198, 214, 193, 213, 159, 108, 210]
  | .refund => [54, 253, 188, 34, 100, 145, 59, 127]
  | .unsold => [101, 141, 8, 65, 176, 225, 47, 110]
  | .closeEscrow => [139, 171, 94, 146, 191, 91, 144, 50]
  | .creatorWithdraw => [92, 117, 206, 254, 174, 108, 37, 106]
  | .refresh => [68, 237, 17, 237, 147, 201, 27, 169]
  | .createMetadata => [139, 13, 120, 145, 18, 209, 185, 180]
  | .closeMetadata => [226, 2, 147, 220, 38, 247, 138, 95]
  | .collectFee => [9, 215, 62, 151, 64, 163, 150, 7]

/-- Discriminators of the events. -/
def eventBytes : EventName → Bytes
  | .fixedArgsCreate => [150, 2, 196, 99, 99, 233, 14, 134]
  | .fixedArgsClose => [232, 209, 108, 196, 129, 150, 155, 161]
  | .presaleCreate => [215, 193, 132, 209, 72, 47, 198, 176]
  | .escrowCreate => [206, 39, 252, 12, 21, 45, 79, 56]
  | .merkleCreate => [124, 71, 226, 147, 30, 112, 202, 20]
  | .deposit => [245, 7, 99, 173, 152, 218, 66, 168]
  | .withdraw => [149, 193, 150, 199, 244, 166, 129, 114]
  | .claim => [219, 247, 169, 104, 92, 196, 174, 1]
  | .refund => [128, 150, 147, 65, 211, 26, 124, 208]
  | .unsold => [101, 134, 249, 143, 220, 171, 228, 130]
  | .escrowClose => [25, 236, 63, 221, 35, 39, 134, 197]
  | .creatorWithdraw => [88, 189, 89, 236, 7, 65, 245, 77]
  | .refresh => [122, 224, 203, 206, 253, 154, 149, 172]
  | .operatorCreate => [102, 33, 72, 210, 83, 100, 255, 79]
  | .metadataCreate => [103, 183, 81, 175, 100, 254, 206, 232]
  | .metadataClose => [205, 49, 203, 99, 89, 22, 127, 111]
  | .collectFee => [47, 82, 115, 255, 214, 26, 54, 104]
  | .merkleClose => [53, 163, 181, 111, 52, 57, 17, 250]

/-- Selector of the instruction that carries events. -/
def eventTagBytes : Bytes := [228, 69, 165, 46, 81, 203, 154, 29]

/-- Selector of the instructions on the interface description. -/
def idlTagBytes : Bytes := [64, 244, 188, 120, 167, 233, 105, 10]

end Verif.Spec
