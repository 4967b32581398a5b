"""Prints the tables (fields in order of number) of Spec/WireSpec.lean from /repo/galileo-osnma/src/galmon/navmon.proto."""
import re
src=open('/repo/galileo-osnma/src/galmon/navmon.proto').read()
src=re.sub(r'//[^\n]*','',src)
toks=re.findall(r'[A-Za-z_0-9]+|"[^"]*"|[{}=;]',src)
msgs=[];enums={}
def parse(i,name):
    fields=[]
    while toks[i]!='}':
        if toks[i]=='message':
            i=parse(i+3,toks[i+1])
        elif toks[i]=='enum':
            n=toks[i+1]; i+=3; v=[]
            while toks[i]!='}':
                v.append((toks[i],int(toks[i+2]))); i+=4
            enums[n]=v; i+=1
        elif toks[i] in('required','optional','repeated'):
            fields.append((toks[i],toks[i+1],toks[i+2],int(toks[i+4]))); i+=6
        else: raise Exception(toks[i:i+5])
    msgs.append((name,fields))
    return i+1
i=toks.index('message')
parse(i+3,toks[i+1])
low=lambda s:s[0].lower()+s[1:]
for n,fs in msgs:
    print(f'/-- `{n}` of `navmon.proto`. -/')
    print(f'def {low(n)} : List (Nat × Ty) :=')
    out=[]
    for c,t,f,k in sorted(fs,key=lambda x:x[3]):
        ty=t if t in('uint32','uint64','int32','bool','double','bytes','string') else ('int32' if t in enums else f'message {low(t)}')
        out.append(f'({k}, {ty})')
    s='  ['+', '.join(out)+']'
    import textwrap
    print('\n'.join(textwrap.wrap(s,150,initial_indent='  ',subsequent_indent='    ',break_long_words=False)).replace('(','(').rstrip())
    print()
